import Verif.Proof.MiscData

/-!
# Blocks of data: C54-C57, C83-C85

`none` is `NULL`. `Usable mode p` only rules out `NULL` passed to `memcmp` or `memcpy`, and that
only if they are as strict as the C standard allows them to be.
-/

namespace Verif.Misc
open Verif.C Spec

/-- C54 is false in the strict reading of the standard: two distinct empty blocks, as made by the
library itself from `NULL`, can't be compared. -/
theorem C54_refuted : dataFromString none = .ok ⟨none, 0⟩ ∧
    (∀ a b, a ≠ b → dataEqual .strict (some (a, ⟨none, 0⟩)) (some (b, ⟨none, 0⟩)) = .error .badArg) ∧
    dataHasPrefix .strict (some ⟨none, 0⟩) (some ⟨none, 0⟩) = .error .badArg ∧
    dataHasSuffix .strict (some ⟨none, 0⟩) (some ⟨none, 0⟩) = .error .badPtr := by
  refine ⟨rfl, ?_, rfl, rfl⟩
  intro a b h
  unfold dataEqual
  simp only []
  rw [if_neg h]
  rfl

/-- C54, `gutil_data_equal`: blocks are equal if their contents are; `NULL` is only equal to
itself. -/
theorem C54_data_equal_partial (mode : Mode) (d1 d2 : Option (Nat × Data))
    (hv1 : ∀ x, d1 = some x → Valid x.2 ∧ Usable mode x.2.bytes) (hv2 : ∀ x, d2 = some x → Valid x.2 ∧ Usable mode x.2.bytes)
    (hs : ∀ x y, d1 = some x → d2 = some y → x.1 = y.1 → x.2 = y.2) :
    dataEqual mode d1 d2 = .ok (decide (d1.map (fun x => contents x.2) = d2.map (fun x => contents x.2))) := by
  cases d1 with
  | none => cases d2 <;> rfl
  | some x =>
    cases d2 with
    | none => rfl
    | some y =>
      obtain ⟨a1, x⟩ := x
      obtain ⟨a2, y⟩ := y
      have h1 : Valid x ∧ Usable mode x.bytes := hv1 _ rfl
      have h2 : Valid y ∧ Usable mode y.bytes := hv2 _ rfl
      unfold dataEqual
      simp only [Option.map_some, Option.some.injEq]
      by_cases ha : a1 = a2
      · have : x = y := hs _ _ rfl rfl ha
        subst this
        rw [if_pos ha]
        simp
      · rw [if_neg ha]
        by_cases hz : x.size = y.size
        · rw [if_pos hz, memEq_ok mode _ _ _ h1.1 (by rw [hz]; exact h2.1) h1.2 h2.2]
          unfold contents
          rw [hz]
        · rw [if_neg hz]
          have : ¬ contents x = contents y := by
            intro e
            have l1 := contents_length x h1.1
            have l2 := contents_length y h2.1
            rw [e] at l1
            omega
          simp [this]

/-- C54, `gutil_data_has_prefix`: "NULL begins with NULL, empty block begins with empty block but
NULL doesn't begin with empty block and empty block doesn't begin with NULL". -/
theorem C54_data_prefix_partial (mode : Mode) (d p : Option Data)
    (hd : ∀ x, d = some x → Valid x ∧ Usable mode x.bytes) (hp : ∀ x, p = some x → Valid x ∧ Usable mode x.bytes) :
    ∃ r, dataHasPrefix mode d p = .ok r ∧
      (r = true ↔ (d = none ∧ p = none) ∨ ∃ x y, d = some x ∧ p = some y ∧ contents y <+: contents x) := by
  cases d with
  | none =>
    refine ⟨_, rfl, ?_⟩
    simp
  | some x =>
    cases p with
    | none => exact ⟨false, rfl, by simp⟩
    | some y =>
      have hx := hd x rfl
      have hy := hp y rfl
      have l1 := contents_length x hx.1
      have l2 := contents_length y hy.1
      unfold dataHasPrefix
      simp only []
      by_cases hz : y.size ≤ x.size
      · rw [if_pos hz, memEq_ok mode _ _ _ (Readable.mono hx.1 hz) hy.1 hx.2 hy.2]
        refine ⟨_, rfl, ?_⟩
        have := prefix_iff (contents x) (contents y)
        rw [l2] at this
        rw [bytesAt_take _ _ _ hz]
        simpa [contents] using this
      · rw [if_neg hz]
        refine ⟨false, rfl, ?_⟩
        simp only [Bool.false_eq_true, reduceCtorEq, and_self, Option.some.injEq, false_or, false_iff]
        rintro ⟨x', y', rfl, rfl, h⟩
        have := h.length_le
        omega

/-- C54, `gutil_data_has_suffix` -/
theorem C54_data_suffix_partial (mode : Mode) (d p : Option Data)
    (hd : ∀ x, d = some x → Valid x ∧ Usable mode x.bytes) (hp : ∀ x, p = some x → Valid x ∧ Usable mode x.bytes) :
    ∃ r, dataHasSuffix mode d p = .ok r ∧
      (r = true ↔ (d = none ∧ p = none) ∨ ∃ x y, d = some x ∧ p = some y ∧ contents y <:+ contents x) := by
  cases d with
  | none =>
    refine ⟨_, rfl, ?_⟩
    simp
  | some x =>
    cases p with
    | none => exact ⟨false, rfl, by simp⟩
    | some y =>
      have hx := hd x rfl
      have hy := hp y rfl
      have l1 := contents_length x hx.1
      have l2 := contents_length y hy.1
      unfold dataHasSuffix
      simp only []
      by_cases hz : y.size ≤ x.size
      · obtain ⟨q, e1, e2, e3, e4⟩ := advance_ok mode x.bytes x.size (x.size - y.size) hx.1 hx.2 (by omega)
        have e5 : x.size - (x.size - y.size) = y.size := by omega
        rw [e5] at e2 e4
        rw [if_pos hz, e1, ok_bind, memEq_ok mode _ _ _ e2 hy.1 e3 hy.2]
        refine ⟨_, rfl, ?_⟩
        have := suffix_iff (contents x) (contents y)
        rw [l2, l1] at this
        rw [e4]
        simpa [contents] using this
      · rw [if_neg hz]
        refine ⟨false, rfl, ?_⟩
        simp only [Bool.false_eq_true, reduceCtorEq, and_self, Option.some.injEq, false_or, false_iff]
        rintro ⟨x', y', rfl, rfl, h⟩
        have := h.length_le
        omega

/-- C54, `gutil_bytes_equal` and `gutil_bytes_equal_data`, in any mode: "NULLs are equal to each
other but not to anything else". There's no problem with `NULL` inside of empty blocks here. -/
theorem C54_bytes_equal (mode : Mode) (b d : Option Data) (p : Ptr) (n : Nat)
    (hb : ∀ x, b = some x → Valid x) (hd : ∀ x, d = some x → Valid x) (hp : p ≠ none → Readable p n) :
    bytesEqual mode b p n = .ok (decide (b.map contents = p.map (fun l => l.take n))) ∧
    bytesEqualData mode b d = .ok (decide (b.map contents = d.map contents)) := by
  have key : ∀ x y : Data, Valid x → Valid y →
      (if x.size = y.size then (if x.size = 0 then .ok true else memEq mode x.bytes y.bytes y.size) else .ok false) =
      (.ok (decide (contents x = contents y)) : M Bool) := by
    intro x y hx hy
    have l1 := contents_length x hx
    have l2 := contents_length y hy
    by_cases hz : x.size = y.size
    · rw [if_pos hz]
      by_cases h0 : x.size = 0
      · rw [if_pos h0]
        have e1 : contents x = [] := List.length_eq_zero_iff.mp (by omega)
        have e2 : contents y = [] := List.length_eq_zero_iff.mp (by omega)
        simp [e1, e2]
      · rw [if_neg h0]
        have hu : ∀ z : Data, Valid z → z.size ≠ 0 → Usable mode z.bytes := by
          intro z hz h
          right
          intro e
          unfold Valid at hz
          rw [e] at hz
          exact h hz
        rw [memEq_ok mode _ _ _ (hz ▸ hx) hy (hu x hx h0) (hu y hy (by omega))]
        unfold contents
        rw [hz]
    · rw [if_neg hz]
      have : ¬ contents x = contents y := by intro e; rw [e] at l1; omega
      simp [this]
  constructor
  · cases b with
    | none => cases p <;> rfl
    | some x =>
      cases p with
      | none => rfl
      | some l =>
        have := key x ⟨some l, n⟩ (hb x rfl) (hp (by simp))
        simp only [Option.map_some, Option.some.injEq]
        exact this
  · cases b with
    | none => cases d <;> rfl
    | some x =>
      cases d with
      | none => rfl
      | some y =>
        have := key x y (hb x rfl) (hd y rfl)
        simp only [Option.map_some, Option.some.injEq]
        exact this

/-- C54, `gutil_bytes_has_prefix` and `gutil_bytes_has_suffix`, in any mode: `NULL` has none, not
even an empty one; everything else has the empty ones (`p` may be `NULL` then). -/
theorem C54_bytes_prefix (mode : Mode) (b : Option Data) (p : Ptr) (n : Nat)
    (hb : ∀ x, b = some x → Valid x) (hp : Readable p n) :
    (∃ r, bytesHasPrefix mode b p n = .ok r ∧ (r = true ↔ ∃ x, b = some x ∧ bytesAt p n <+: contents x)) ∧
    (∃ r, bytesHasSuffix mode b p n = .ok r ∧ (r = true ↔ ∃ x, b = some x ∧ bytesAt p n <:+ contents x)) := by
  have l2 := bytesAt_length p n hp
  cases b with
  | none => exact ⟨⟨false, rfl, by simp⟩, ⟨false, rfl, by simp⟩⟩
  | some x =>
    have hx := hb x rfl
    have l1 := contents_length x hx
    by_cases h0 : n = 0
    · have e : bytesAt p n = [] := List.length_eq_zero_iff.mp (by omega)
      constructor
      · refine ⟨true, ?_, ?_⟩
        · unfold bytesHasPrefix; simp [h0]
        · simp [e]
      · refine ⟨true, ?_, ?_⟩
        · unfold bytesHasSuffix; simp [h0]
        · simp [e]
    · have hup : Usable mode p := by
        right
        rintro rfl
        exact h0 hp
      by_cases hz : n ≤ x.size
      · have hux : Usable mode x.bytes := by
          right
          intro e
          unfold Valid at hx
          rw [e] at hx
          have hx : x.size = 0 := hx
          omega
        constructor
        · refine ⟨_, by unfold bytesHasPrefix; simp only []; rw [if_neg h0, if_pos hz, memEq_ok mode _ _ _ (Readable.mono hx hz) hp hux hup], ?_⟩
          have := prefix_iff (contents x) (bytesAt p n)
          rw [l2] at this
          rw [bytesAt_take _ _ _ hz]
          simpa [contents] using this
        · obtain ⟨q, e1, e2, e3, e4⟩ := advance_ok mode x.bytes x.size (x.size - n) hx hux (by omega)
          have e5 : x.size - (x.size - n) = n := by omega
          rw [e5] at e2 e4
          refine ⟨_, by unfold bytesHasSuffix; simp only []; rw [if_neg h0, if_pos hz, e1, ok_bind, memEq_ok mode _ _ _ e2 hp e3 hup], ?_⟩
          have := suffix_iff (contents x) (bytesAt p n)
          rw [l2, l1] at this
          rw [e4]
          simpa [contents] using this
      · constructor
        · refine ⟨false, by unfold bytesHasPrefix; simp only []; rw [if_neg h0, if_neg hz], ?_⟩
          simp only [Bool.false_eq_true, Option.some.injEq, false_iff]
          rintro ⟨x', rfl, h⟩
          have := h.length_le
          omega
        · refine ⟨false, by unfold bytesHasSuffix; simp only []; rw [if_neg h0, if_neg hz], ?_⟩
          simp only [Bool.false_eq_true, Option.some.injEq, false_iff]
          rintro ⟨x', rfl, h⟩
          have := h.length_le
          omega

example : dataHasSuffix .strict (some ⟨some [1, 2, 3, 9], 3⟩) (some ⟨some [2, 3, 7], 2⟩) = .ok true := by decide +kernel
example : dataHasPrefix .strict (some ⟨some [1, 2, 3, 9], 3⟩) (some ⟨some [1, 2, 7], 3⟩) = .ok false := by decide +kernel
example : Valid ⟨some [1, 2, 3, 9], 3⟩ ∧ Usable .strict (some [1, 2, 3, 9]) := ⟨by show 3 ≤ 4; decide, .inr (by simp)⟩
example : bytesEqual .strict (some ⟨none, 0⟩) (some [1]) 0 = .ok true := by decide +kernel

/-- C55 is false in the strict reading: `memcpy` of zero bytes from `NULL` (which is what GLib
returns for empty bytes), and words at addresses which aren't aligned. And it's false in any
reading if the sum of sizes doesn't fit in `gsize`: the buffer is too small. That takes no more
than one block of memory, passed several times. -/
theorem C55_refuted :
    bytesConcat .strict (some ⟨some [1], 1⟩) [⟨none, 0⟩, ⟨some [2], 1⟩] = .error .badArg ∧
    bytesXor .strict 4 1 0 (some ⟨some [1, 2, 3, 4], 4⟩) (some ⟨some [1, 2, 3, 4], 4⟩) = .error .badPtr ∧
    ∀ (mode : Mode) (l : List Byte), l.length = 2 ^ 62 → ∀ d : Data, d = ⟨some l, 2 ^ 62⟩ →
      bytesConcat mode (some d) [d, d, d] = .error .oobWrite := by
  refine ⟨by decide +kernel, by decide +kernel, ?_⟩
  intro mode l hl d hd
  have hs : d.size = 2 ^ 62 := by rw [hd]
  have hb : d.bytes = some l := by rw [hd]
  have hsc : concatScan [d, d, d] 1 d.size (if d.size = 0 then 0 else 1) 0 = (0, 4, 3) := by
    simp only [concatScan, hs]
    decide
  unfold bytesConcat
  simp only []
  rw [hsc]
  simp only [Nat.reduceEqDiff, if_false]
  rw [concatCopy, append, access_ok mode _ _ (by rw [hb, hs]; show 2 ^ 62 ≤ l.length; omega) (.inr (by simp [hb])), ok_bind, if_neg]
  · rfl
  · rw [hs]
    simp

/-- C55, concatenation: the result of `gutil_bytes_concat` holds the contents of all arguments in
order. It's a reference to one of them if there's nothing to concatenate. -/
theorem C55_concat_partial (mode : Mode) (b : Data) (more : List Data) (hv : ∀ d ∈ b :: more, Valid d ∧ Usable mode d.bytes)
    (hs : ((b :: more).map Data.size).sum < 2 ^ 64) :
    ∃ r, bytesConcat mode (some b) more = .ok (some r) ∧
      match r with
      | .new l => l = (b :: more).flatMap contents
      | .ref i => ∃ d, (b :: more)[i]? = some d ∧ contents d = (b :: more).flatMap contents := by
  simp only [List.map_cons, List.sum_cons] at hs
  have hsc := concatScan_spec more [b] b.size (if b.size = 0 then 0 else 1) 0 (by omega) (by
    by_cases h : b.size = 0
    · simp [h]
    · simp [h]) (by
    intro h
    refine ⟨b, rfl, ?_⟩
    intro h0
    rw [if_pos h0] at h
    exact h rfl)
  simp only [List.length_cons, List.length_nil, Nat.zero_add] at hsc
  obtain ⟨h1, h2, h3⟩ := hsc
  unfold bytesConcat
  simp only []
  generalize concatScan more 1 b.size (if b.size = 0 then 0 else 1) 0 = r at *
  obtain ⟨total, count, ne⟩ := r
  simp only [List.cons_append, List.nil_append] at h1 h2 h3 ⊢
  by_cases c0 : count = 0
  · rw [if_pos c0]
    refine ⟨_, rfl, b, rfl, ?_⟩
    have hall : ∀ d ∈ b :: more, contents d = [] := by
      intro d hd
      rw [c0] at h2
      have := List.countP_eq_zero.mp h2.symm d hd
      have hl := contents_length d (hv d hd).1
      simp at this
      exact List.length_eq_zero_iff.mp (by omega)
    rw [hall b (by simp)]
    symm
    rw [List.flatMap_eq_nil_iff]
    exact hall
  · rw [if_neg c0]
    by_cases c1 : count = 1
    · rw [if_pos c1]
      obtain ⟨d, hd, hdz⟩ := h3 c0
      exact ⟨_, rfl, d, hd, (flatMap_one _ (fun d hd => (hv d hd).1) (by omega) ne d hd hdz).symm⟩
    · rw [if_neg c1, concatCopy_ok mode total (b :: more) [] hv (by
        simp only [List.map_cons, List.sum_cons, List.length_nil]
        omega), ok_bind]
      exact ⟨_, rfl, rfl⟩

/-- C55, exclusive or: each byte of the result is the exclusive or of those at the same place in
the arguments, as far as both of them go. If one of them is empty, the result is a reference to
it. `w` is the size of a word, any; the addresses matter only in the strict reading. -/
theorem C55_xor_partial (mode : Mode) (w a1 a2 : Nat) (b1 b2 : Data) (hw : 0 < w) (h1 : Valid b1) (h2 : Valid b2)
    (ha : mode = .wrap ∨ min b1.size b2.size < w ∨ (a1 % w = 0 ∧ a2 % w = 0)) :
    ∃ r, bytesXor mode w a1 a2 (some b1) (some b2) = .ok (some r) ∧
      match r with
      | .new l => l = List.zipWith (· ^^^ ·) (contents b1) (contents b2)
      | .ref i => ∃ d, [b1, b2][i]? = some d ∧ contents d = [] ∧ List.zipWith (· ^^^ ·) (contents b1) (contents b2) = [] := by
  have e1 := contents_length b1 h1
  have e2 := contents_length b2 h2
  unfold bytesXor
  simp only []
  by_cases hz : min b1.size b2.size ≠ 0
  · rw [if_pos hz]
    have hsome : ∀ d : Data, Valid d → d.size ≠ 0 → ∃ l, d.bytes = some l ∧ d.size ≤ l.length ∧ contents d = l.take d.size := by
      intro d hd h0
      unfold Valid at hd
      unfold contents
      cases e : d.bytes with
      | none => rw [e] at hd; exact absurd hd h0
      | some l => rw [e] at hd; exact ⟨l, rfl, hd, rfl⟩
    obtain ⟨l1, p1, q1, r1⟩ := hsome b1 h1 (by omega)
    obtain ⟨l2, p2, q2, r2⟩ := hsome b2 h2 (by omega)
    obtain ⟨i, hi1, hi2, hi3⟩ := xorWords_ok mode w (min b1.size b2.size) a1 a2 l1 l2 hw (by omega) (by omega) ha
      (min b1.size b2.size + 1) 0 (by omega) (by omega)
    simp only [Nat.zero_mul, List.take_zero, List.zipWith_nil_left] at hi3
    rw [p1, p2, hi3, ok_bind]
    dsimp only
    rw [xorTail_ok mode _ l1 l2 (by omega) (by omega) _ i hi1 (by omega), ok_bind]
    refine ⟨_, rfl, ?_⟩
    rw [r1, r2]
    simp only []
    apply List.ext_getElem?
    intro k
    simp only [List.getElem?_zipWith, List.getElem?_take]
    by_cases hk : k < min b1.size b2.size
    · rw [if_pos hk, if_pos hk, if_pos (by omega), if_pos (by omega)]
    · rw [if_neg hk, if_neg hk]
      by_cases hk1 : k < b1.size
      · rw [if_pos hk1, if_neg (by omega)]
        cases l1[k]? <;> rfl
      · rw [if_neg hk1]
  · rw [if_neg hz]
    have hempty : ∀ d : Data, (contents d).length = d.size → d.size = 0 → contents d = [] :=
      fun d h h0 => List.length_eq_zero_iff.mp (by omega)
    by_cases h0 : b1.size ≠ 0
    · refine ⟨_, rfl, ?_⟩
      rw [if_pos h0]
      have := hempty b2 e2 (by omega)
      exact ⟨b2, rfl, this, by rw [this]; simp⟩
    · refine ⟨_, rfl, ?_⟩
      rw [if_neg h0]
      have := hempty b1 e1 (by omega)
      exact ⟨b1, rfl, this, by rw [this]; rfl⟩

/-- `NULL` gives `NULL`. -/
theorem C55_null (mode : Mode) (w a1 a2 : Nat) (b : Option Data) (more : List Data) :
    bytesConcat mode none more = .ok none ∧ bytesXor mode w a1 a2 none b = .ok none ∧ bytesXor mode w a1 a2 b none = .ok none := by
  refine ⟨rfl, rfl, ?_⟩
  cases b <;> rfl

example : bytesConcat .strict (some ⟨some [1, 2], 2⟩) [⟨some [], 0⟩, ⟨some [3, 4], 1⟩] = .ok (some (.new [1, 2, 3])) := by decide +kernel
example : bytesConcat .wrap (some ⟨none, 0⟩) [⟨some [7], 1⟩, ⟨none, 0⟩] = .ok (some (.ref 1)) := by decide +kernel
example : bytesXor .strict 4 8 16 (some ⟨some [1, 2, 3, 4, 5, 6, 7], 7⟩) (some ⟨some [255, 1, 3, 4, 4, 2], 6⟩) =
    .ok (some (.new [254, 3, 0, 0, 1, 4])) := by decide +kernel

/-- C56. If the range (of a non-NULL object) begins with the prefix then it's advanced by the
size of that, otherwise it stays as it is. The result is a valid range again, so it never passes
its end. `NULL` range (also one with `NULL` pointers) and `NULL` prefix: it doesn't. -/
theorem C56_range (mode : Mode) (r : Range) (p : Data) (hr : ValidRange r) (hp : Valid p) (hu : Usable mode p.bytes) :
    ∃ r' b, rangeSkipPrefix mode (some r) (some p) = .ok (some r', b) ∧ rangeHasPrefix mode (some r) (some p) = .ok b ∧
      (b = true ↔ r.mem ≠ none ∧ contents p <+: rangeBytes r) ∧ ValidRange r' ∧ r'.mem = r.mem ∧ r'.stop = r.stop ∧
      (b = true → rangeBytes r = contents p ++ rangeBytes r') ∧ (b = false → r' = r) := by
  have hl := contents_length p hp
  have key : ∃ b, rangeHasPrefix mode (some r) (some p) = .ok b ∧ (b = true ↔ r.mem ≠ none ∧ contents p <+: rangeBytes r) := by
    unfold rangeHasPrefix rangeBytes
    simp only []
    cases e : r.mem with
    | none => exact ⟨false, rfl, by simp⟩
    | some m =>
      have hm : r.stop ≤ m.length := by
        have := hr.2
        rw [e] at this
        exact this
      have hrl : ((m.take r.stop).drop r.ptr).length = r.stop - r.ptr := by simp; omega
      simp only [Option.getD_some, ne_eq, reduceCtorEq, not_false_eq_true, true_and]
      by_cases h1 : r.stop > r.ptr
      · rw [if_pos h1]
        by_cases h2 : r.stop - r.ptr ≥ p.size
        · rw [if_pos h2, memEq_ok mode _ _ _ (by show p.size ≤ (m.drop r.ptr).length; simp; omega) hp (.inr (by simp)) hu]
          refine ⟨_, rfl, ?_⟩
          have := prefix_iff ((m.take r.stop).drop r.ptr) (contents p)
          rw [hl, List.drop_take, List.take_take, Nat.min_eq_left h2] at this
          rw [List.drop_take, decide_eq_true_iff]
          exact this
        · rw [if_neg h2]
          refine ⟨false, rfl, ?_⟩
          simp only [Bool.false_eq_true, false_iff]
          intro h
          have := h.length_le
          omega
      · rw [if_neg h1]
        refine ⟨_, rfl, ?_⟩
        have hnil : (m.take r.stop).drop r.ptr = [] := List.length_eq_zero_iff.mp (by omega)
        rw [hnil, List.prefix_nil, ← List.length_eq_zero_iff, hl]
        simp
  obtain ⟨b, hb, hbi⟩ := key
  cases b with
  | false =>
    refine ⟨r, false, by rw [rangeSkipPrefix, hb, ok_bind]; rfl, hb, hbi, hr, rfl, rfl, by simp, fun _ => rfl⟩
  | true =>
    obtain ⟨hne, t, ht⟩ := hbi.mp rfl
    refine ⟨{ r with ptr := r.ptr + p.size }, true, by rw [rangeSkipPrefix, hb, ok_bind]; rfl, hb, hbi, ?_, rfl, rfl, ?_, by simp⟩
    · refine ⟨?_, hr.2⟩
      have h1 : (rangeBytes r).length ≤ r.stop - r.ptr := by simp [rangeBytes]; omega
      rw [← ht, List.length_append, hl] at h1
      by_cases h0 : p.size = 0
      · simp only [h0]; have := hr.1; omega
      · simp only []; omega
    · intro _
      have e : rangeBytes { r with ptr := r.ptr + p.size } = (rangeBytes r).drop p.size := by
        unfold rangeBytes
        simp only [List.drop_drop]
      rw [e, ← ht, ← hl, List.drop_left]

/-- The `NULL` cases -/
theorem C56_null (mode : Mode) (r : Option Range) (p : Option Data) :
    rangeSkipPrefix mode none p = .ok (none, false) ∧ rangeSkipPrefix mode r none = .ok (r, false) ∧
    rangeSkipPrefix mode (some (rangeInit none).1) p = .ok (some (rangeInit none).1, false) := by
  refine ⟨rfl, ?_, ?_⟩
  · cases r <;> rfl
  · cases p <;> rfl

/-- A range made of bytes contains them. -/
theorem C56_init (b : Data) (h : Valid b) : ValidRange (rangeInit (some b)).1 ∧ rangeBytes (rangeInit (some b)).1 = contents b ∧
    (rangeInit (some b)).2 = b.size :=
  ⟨⟨Nat.zero_le _, h⟩, rfl, rfl⟩

example : rangeSkipPrefix .strict (some ⟨some [1, 2, 3, 4], 1, 4⟩) (some ⟨some [2, 3, 9], 2⟩) = .ok (some ⟨some [1, 2, 3, 4], 3, 4⟩, true) := by
  decide +kernel
/-- The prefix is what's in the memory, but behind the end of the range. -/
example : rangeSkipPrefix .strict (some ⟨some [1, 2, 3, 4], 1, 2⟩) (some ⟨some [2, 3, 9], 2⟩) = .ok (some ⟨some [1, 2, 3, 4], 1, 2⟩, false) := by
  decide +kernel

/-- C57 is false for all blocks of 4 GiB or more: the copy is not that large. -/
theorem C57_refuted (mode : Mode) (l : List Byte) (d : Data) (hd : d.bytes = some l) (hv : Valid d) (hs : d.size ≥ 2 ^ 32) :
    ∃ c, dataCopy mode (some d) = .ok (some c) ∧ Valid c ∧ (contents c).length < 2 ^ 32 ∧ contents c ≠ contents d := by
  have hr : Readable (some l) (d.size % 2 ^ 32) := by
    have : Readable (some l) d.size := hd ▸ hv
    exact Readable.mono this (Nat.mod_le _ _)
  have hl := contents_length d hv
  have hc : Valid ⟨some (l.take (d.size % 2 ^ 32)), d.size % 2 ^ 32⟩ := by
    show d.size % 2 ^ 32 ≤ (l.take (d.size % 2 ^ 32)).length
    have : d.size % 2 ^ 32 ≤ l.length := hr
    rw [List.length_take]
    omega
  have hcl := contents_length _ hc
  refine ⟨_, by rw [dataCopy, hd, dataNew, access_ok mode _ _ hr (.inr (by simp)), ok_bind, ok_bind]; rfl, hc, ?_, ?_⟩
  · rw [hcl]
    simp only []
    omega
  · intro e
    rw [e] at hcl
    simp only [] at hcl
    omega

/-- Such blocks exist. -/
example : ∃ (l : List Byte) (d : Data), d.bytes = some l ∧ Valid d ∧ d.size ≥ 2 ^ 32 := by
  obtain ⟨n, hn⟩ : ∃ n, n = 2 ^ 32 := ⟨_, rfl⟩
  exact ⟨List.replicate n 0, ⟨some (List.replicate n 0), n⟩, rfl, by show n ≤ (List.replicate n 0).length; simp, by simp only []; omega⟩

/-- C57, below 4 GiB: the copy is a valid block with the same contents, and `gutil_data_new`
makes one with the contents it's given. -/
theorem C57_copy_partial (mode : Mode) (d : Data) (hv : Valid d) (hs : d.size < 2 ^ 32) :
    (∃ c, dataCopy mode (some d) = .ok (some c) ∧ Valid c ∧ contents c = contents d) ∧
    (∃ c, dataNew mode d.bytes d.size = .ok c ∧ Valid c ∧ contents c = contents d) := by
  have key : ∃ c, dataNew mode d.bytes d.size = .ok c ∧ Valid c ∧ contents c = contents d := by
    unfold contents
    unfold Valid at hv
    cases e : d.bytes with
    | none =>
      rw [e] at hv
      have hv : d.size = 0 := hv
      exact ⟨⟨none, 0⟩, rfl, rfl, by simp [bytesAt]⟩
    | some l =>
      rw [e] at hv
      refine ⟨_, by rw [dataNew, access_ok mode _ _ hv (.inr (by simp)), ok_bind], ?_, ?_⟩
      · show d.size ≤ (bytesAt (some l) d.size).length
        rw [bytesAt_length _ _ hv]
        exact Nat.le_refl _
      · simp [bytesAt, List.take_take]
  refine ⟨?_, key⟩
  obtain ⟨c, h1, h2⟩ := key
  exact ⟨c, by rw [dataCopy, Nat.mod_eq_of_lt hs, h1, ok_bind], h2⟩

/-- The variant contains all the bytes, of any number of them. -/
theorem C57_variant (mode : Mode) (d : Data) (hv : Valid d) : dataCopyAsVariant mode (some d) = .ok (some (contents d)) := by
  unfold dataCopyAsVariant
  simp only []
  by_cases h0 : d.size ≠ 0
  · rw [if_pos h0, access_ok mode _ _ hv, ok_bind]
    · rfl
    · right
      intro e
      unfold Valid at hv
      rw [e] at hv
      exact h0 hv
  · rw [if_neg h0]
    have hl := contents_length d hv
    have : contents d = [] := List.length_eq_zero_iff.mp (by omega)
    rw [this]

/-- The blocks made from strings and bytes refer to the same contents. -/
theorem C57_from (s rest : List Byte) (h0 : (0 : Byte) ∉ s) (b : Data) (hb : Valid b) :
    (∃ d, dataFromString (some (s ++ 0 :: rest)) = .ok d ∧ Valid d ∧ contents d = s) ∧
    Valid (dataFromBytes (some b)) ∧ contents (dataFromBytes (some b)) = contents b ∧
    Valid (dataFromBytes none) ∧ contents (dataFromBytes none) = [] ∧ dataFromString none = .ok ⟨none, 0⟩ := by
  have hlen : strlen (s ++ 0 :: rest) = .ok s.length := by
    induction s with
    | nil => simp [strlen]
    | cons c t ih =>
      simp only [List.mem_cons, not_or] at h0
      rw [List.cons_append, strlen, if_neg (fun e => h0.1 e.symm), ih h0.2, ok_bind]
      rfl
  refine ⟨⟨⟨some (s ++ 0 :: rest), s.length⟩, ?_, ?_, ?_⟩, hb, rfl, rfl, rfl, rfl⟩
  · rw [dataFromString, hlen, ok_bind]
  · show s.length ≤ (s ++ 0 :: rest).length
    simp
  · simp [contents, bytesAt]

example : dataCopy .strict (some ⟨some [1, 2, 3], 2⟩) = .ok (some ⟨some [1, 2], 2⟩) := by decide +kernel

/-! ### C83: vectors of pointers -/

/-- C83. For any vector of pointers `ps` terminated by `NULL`, whatever follows the terminator:
the length is the number of pointers, the vector is empty iff there are none; and if the
pointers are distinct and allocated, `gutil_ptrv_free` releases all of them and nothing else. -/
theorem C83_ptrv (ps : List Nat) (rest : Block) (h : Heap) (hn : ps.Nodup) (ha : ∀ p ∈ ps, ∃ s, h[p]? = some (some s)) :
    ptrvLength (some (ps.map Cell.ptr ++ Cell.null :: rest)) = .ok ps.length ∧
    ptrvIsEmpty (some (ps.map Cell.ptr ++ Cell.null :: rest)) = .ok (decide (ps = [])) ∧
    ∃ h', ptrvFree h (some (ps.map Cell.ptr ++ Cell.null :: rest)) = .ok h' ∧ h'.length = h.length ∧
      (∀ p ∈ ps, h'[p]? = some none) ∧ (∀ q, q ∉ ps → h'[q]? = h[q]?) := by
  refine ⟨?_, ?_, ?_⟩
  · have : ∀ k, ptrvLengthLoop (ps.map Cell.ptr ++ Cell.null :: rest) k = .ok (k + ps.length) := by
      clear hn ha
      induction ps with
      | nil => intro k; simp [ptrvLengthLoop, load, ok_bind]
      | cons p t ih =>
        intro k
        rw [List.map_cons, List.cons_append, ptrvLengthLoop, load, ok_bind]
        simp only []
        rw [ih, List.length_cons]
        congr 1
        omega
    rw [ptrvLength, this]
    simp
  · cases ps with
    | nil => rfl
    | cons p t => rfl
  · rw [ptrvFree]
    induction ps generalizing h with
    | nil => exact ⟨h, rfl, rfl, by simp, fun _ _ => rfl⟩
    | cons p t ih =>
      obtain ⟨s, hs⟩ := ha p (by simp)
      have hlt : p < h.length := (List.getElem?_eq_some_iff.mp hs).1
      have hpt : p ∉ t := (List.nodup_cons.mp hn).1
      obtain ⟨h', e1, e2, e3, e4⟩ := ih (h.set p none) (List.nodup_cons.mp hn).2 (by
        intro q hq
        obtain ⟨s', hs'⟩ := ha q (by simp [hq])
        refine ⟨s', ?_⟩
        rw [List.getElem?_set_ne (by rintro rfl; exact hpt hq)]
        exact hs')
      refine ⟨h', ?_, by rw [e2]; simp, ?_, ?_⟩
      · rw [List.map_cons, List.cons_append, ptrvFreeLoop, load, ok_bind]
        simp only [gfree, hs, ok_bind]
        exact e1
      · intro q hq
        rcases List.mem_cons.mp hq with rfl | hq
        · rw [e4 q hpt, List.getElem?_set_self hlt]
        · exact e3 q hq
      · intro q hq
        simp only [List.mem_cons, not_or] at hq
        rw [e4 q hq.2, List.getElem?_set_ne (fun e => hq.1 e.symm)]

theorem C83_null (h : Heap) : ptrvLength none = .ok 0 ∧ ptrvIsEmpty none = .ok true ∧ ptrvFree h none = .ok h := ⟨rfl, rfl, rfl⟩

example : ptrvFree [some [1], some [2], some [3]] (some [.ptr 2, .ptr 0, .null, .uninit]) = .ok [none, some [2], none] := by decide +kernel

/-! ### C84: copies of memory -/

/-- C84. `gutil_memdup` of a non-empty block is a new block with exactly these bytes, it's `NULL`
for `NULL` and for no bytes. `gutil_strlen0` is the length of the string, zero for `NULL`. -/
theorem C84_memdup (mode : Mode) (l : List Byte) (n : Nat) (h : n ≤ l.length) :
    (n ≠ 0 → memdup mode (some l) n = .ok (some (l.take n))) ∧ memdup mode (some l) 0 = .ok none ∧ memdup mode none n = .ok none := by
  refine ⟨?_, rfl, rfl⟩
  intro hn
  rw [memdup, if_pos hn, access_ok mode (some l) n h (.inr (by simp)), ok_bind]
  rfl

theorem C84_strlen (s rest : List Byte) (h0 : (0 : Byte) ∉ s) : strlen0 (some (s ++ 0 :: rest)) = .ok s.length ∧ strlen0 none = .ok 0 := by
  refine ⟨?_, rfl⟩
  rw [strlen0]
  induction s with
  | nil => simp [strlen]
  | cons c t ih =>
    simp only [List.mem_cons, not_or] at h0
    rw [List.cons_append, strlen, if_neg (fun e => h0.1 e.symm), ih h0.2, ok_bind]
    rfl

example : memdup .strict (some [1, 2, 3]) 2 = .ok (some [1, 2]) := by decide +kernel

/-! ### C85: handlers and sources -/

/-- C85. `gutil_disconnect_handlers` disconnects exactly the non-zero ids among the first `count`,
each once and in order, zeroes these and leaves the rest alone. -/
theorem C85_disconnect (ids rest : List Nat) :
    disconnectHandlers true (some (ids ++ rest)) ids.length =
      .ok (some (List.replicate ids.length 0 ++ rest), ids.filter (· ≠ 0)) := by
  have : disconnectLoop ids.length (ids ++ rest) = .ok (List.replicate ids.length 0 ++ rest, ids.filter (· ≠ 0)) := by
    induction ids with
    | nil => rfl
    | cons x t ih =>
      rw [List.length_cons, List.cons_append, disconnectLoop, ih, ok_bind]
      by_cases hx : x ≠ 0
      · simp [hx, List.replicate_succ]
      · simp only [ne_eq, Decidable.not_not] at hx
        subst hx
        simp [List.replicate_succ]
  rw [disconnectHandlers]
  simp only [if_true, Int.toNat_natCast]
  rw [this, ok_bind]

/-- Nothing happens if there's no instance, no ids, or the count isn't positive. -/
theorem C85_nothing (inst : Bool) (ids : Option (List Nat)) (count : Int) (h : inst = false ∨ ids = none ∨ count ≤ 0) :
    disconnectHandlers inst ids count = .ok (ids, []) := by
  unfold disconnectHandlers
  cases ids with
  | none => rfl
  | some ids =>
    simp only []
    cases inst with
    | false => rfl
    | true =>
      simp only [reduceCtorEq, false_or] at h
      have : count.toNat = 0 := by omega
      rw [this]
      rfl

/-- `gutil_source_remove` and `gutil_source_clear` remove the source iff the id isn't zero, and
tell whether they did; the latter leaves zero in the variable. -/
theorem C85_source (id : Nat) :
    (id ≠ 0 → sourceRemove id = (true, [id]) ∧ sourceClear (some id) = (some 0, true, [id])) ∧
    sourceRemove 0 = (false, []) ∧ sourceClear (some 0) = (some 0, false, []) ∧ sourceClear none = (none, false, []) := by
  refine ⟨?_, rfl, rfl, rfl⟩
  intro h
  unfold sourceRemove sourceClear
  simp [h]

example : disconnectHandlers true (some [5, 0, 7, 9]) 3 = .ok (some [0, 0, 0, 9], [5, 7]) := by decide +kernel

end Verif.Misc
