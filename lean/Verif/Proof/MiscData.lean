import Verif.Spec.MiscData

/-!
# Lemmas about blocks of data
-/

namespace Verif.Misc
open Verif.C Spec

theorem access_ok (mode : Mode) (p : Ptr) (n : Nat) (h : Readable p n) (hu : Usable mode p) : access mode p n = .ok (bytesAt p n) := by
  unfold access bytesAt
  cases p with
  | some l =>
    have h : n ≤ l.length := h
    simp [h]
  | none =>
    have h : n = 0 := h
    rcases hu with rfl | hu
    · simp [h]
    · exact absurd rfl hu

theorem memEq_ok (mode : Mode) (p q : Ptr) (n : Nat) (hp : Readable p n) (hq : Readable q n) (hup : Usable mode p) (huq : Usable mode q) :
    memEq mode p q n = .ok (decide (bytesAt p n = bytesAt q n)) := by
  rw [memEq, access_ok mode p n hp hup, ok_bind, access_ok mode q n hq huq, ok_bind]

theorem bytesAt_length (p : Ptr) (n : Nat) (h : Readable p n) : (bytesAt p n).length = n := by
  unfold bytesAt
  cases p with
  | some l =>
    have h : n ≤ l.length := h
    simp [h]
  | none =>
    have h : n = 0 := h
    simp [h]

theorem contents_length (d : Data) (h : Valid d) : (contents d).length = d.size := bytesAt_length _ _ h

theorem Readable.mono {p : Ptr} {n m : Nat} (h : Readable p n) (hm : m ≤ n) : Readable p m := by
  cases p with
  | some l =>
    have h : n ≤ l.length := h
    show m ≤ l.length
    omega
  | none =>
    have h : n = 0 := h
    show m = 0
    omega

theorem bytesAt_take (p : Ptr) (n m : Nat) (hm : m ≤ n) : bytesAt p m = (bytesAt p n).take m := by
  unfold bytesAt
  rw [List.take_take, Nat.min_eq_left hm]

theorem advance_ok (mode : Mode) (p : Ptr) (n m : Nat) (h : Readable p n) (hu : Usable mode p) (hm : m ≤ n) :
    ∃ q, advance mode p m = .ok q ∧ Readable q (n - m) ∧ Usable mode q ∧ bytesAt q (n - m) = (bytesAt p n).drop m := by
  unfold advance
  cases p with
  | some l =>
    have h : n ≤ l.length := h
    refine ⟨some (l.drop m), by simp; omega, ?_, .inr (by simp), ?_⟩
    · show n - m ≤ (l.drop m).length
      simp; omega
    · unfold bytesAt
      simp [List.drop_take]
  | none =>
    have h : n = 0 := h
    have hm : m = 0 := by omega
    rcases hu with rfl | hu
    · refine ⟨none, by simp [hm], ?_, .inl rfl, ?_⟩
      · show n - m = 0
        omega
      · simp [bytesAt]
    · exact absurd rfl hu

theorem prefix_iff (a b : List Byte) : a.take b.length = b ↔ b <+: a := by
  constructor
  · intro e; rw [← e]; exact List.take_prefix _ _
  · intro e; exact (List.prefix_iff_eq_take.mp e).symm

theorem suffix_iff (a b : List Byte) : a.drop (a.length - b.length) = b ↔ b <:+ a := by
  constructor
  · intro e; rw [← e]; exact List.drop_suffix _ _
  · intro e; exact (List.suffix_iff_eq_drop.mp e).symm

/-- Concatenation: what the first pass finds -/
theorem concatScan_spec : ∀ (l : List Data) (pre : List Data) (total count ne : Nat),
    total < 2 ^ 64 →
    (count = (pre.countP (fun d => d.size ≠ 0))) → (count ≠ 0 → ∃ d, pre[ne]? = some d ∧ d.size ≠ 0) →
    let r := concatScan l pre.length total count ne
    r.1 = (total + (l.map Data.size).sum) % 2 ^ 64 ∧ r.2.1 = (pre ++ l).countP (fun d => d.size ≠ 0) ∧
      (r.2.1 ≠ 0 → ∃ d, (pre ++ l)[r.2.2]? = some d ∧ d.size ≠ 0) := by
  intro l
  induction l with
  | nil =>
    intro pre total count ne ht hc hn
    simp only [concatScan, List.map_nil, List.sum_nil, Nat.add_zero, List.append_nil]
    exact ⟨(Nat.mod_eq_of_lt ht).symm, hc, hn⟩
  | cons b t ih =>
    intro pre total count ne ht hc hn
    simp only [concatScan]
    have e1 : pre.length + 1 = (pre ++ [b]).length := by simp
    have e2 : pre ++ b :: t = (pre ++ [b]) ++ t := by simp
    have e3 : (total + (((b :: t).map Data.size).sum)) % 2 ^ 64 = ((total + b.size) % 2 ^ 64 + (t.map Data.size).sum) % 2 ^ 64 := by
      simp only [List.map_cons, List.sum_cons]
      omega
    rw [e1, e2, e3]
    by_cases hb : b.size ≠ 0
    · rw [if_pos hb]
      apply ih (pre ++ [b]) _ _ _ (Nat.mod_lt _ (by decide))
      · rw [List.countP_append, ← hc]
        simp [hb]
      · intro _
        exact ⟨b, by simp, hb⟩
    · rw [if_neg hb]
      apply ih (pre ++ [b]) _ _ _ (Nat.mod_lt _ (by decide))
      · rw [List.countP_append, ← hc]
        simp only [ne_eq, Decidable.not_not] at hb
        simp [hb]
      · intro h
        obtain ⟨d, h1, h2⟩ := hn h
        have hlt := (List.getElem?_eq_some_iff.mp h1).1
        exact ⟨d, by rw [List.getElem?_append_left hlt]; exact h1, h2⟩

theorem concatCopy_ok (mode : Mode) (cap : Nat) : ∀ (l : List Data) (out : List Byte), (∀ d ∈ l, Valid d ∧ Usable mode d.bytes) →
    out.length + (l.map Data.size).sum ≤ cap → concatCopy mode cap l out = .ok (out ++ l.flatMap contents) := by
  intro l
  induction l with
  | nil => intro out _ _; simp [concatCopy]
  | cons b t ih =>
    intro out hv hc
    simp only [List.map_cons, List.sum_cons] at hc
    have hb := hv b (by simp)
    rw [concatCopy, append, access_ok mode _ _ hb.1 hb.2, ok_bind, if_pos (by omega), ok_bind, ih]
    · simp [contents]
    · exact fun d hd => hv d (by simp [hd])
    · have := bytesAt_length _ _ hb.1
      simp only [List.length_append, this]
      omega

/-- If at most one isn't empty then that's what the concatenation is. -/
theorem flatMap_one : ∀ (l : List Data), (∀ d ∈ l, Valid d) → l.countP (fun d => d.size ≠ 0) = 1 → ∀ (i : Nat) (d : Data), l[i]? = some d →
    d.size ≠ 0 → l.flatMap contents = contents d := by
  intro l
  induction l with
  | nil => intro _ h; simp at h
  | cons b t ih =>
    intro hv h i d hi hd
    by_cases hb : b.size = 0
    · have hbc : contents b = [] := by
        have := contents_length b (hv b (by simp))
        exact List.length_eq_zero_iff.mp (by omega)
      rw [List.countP_cons, if_neg (by simp [hb])] at h
      cases i with
      | zero => simp at hi; subst hi; exact absurd hb hd
      | succ i =>
        simp only [List.getElem?_cons_succ] at hi
        rw [List.flatMap_cons, hbc, List.nil_append]
        exact ih (fun d hd => hv d (by simp [hd])) (by omega) i d hi hd
    · rw [List.countP_cons, if_pos (by simp [hb])] at h
      have h0 : t.countP (fun d => d.size ≠ 0) = 0 := by omega
      rw [List.countP_eq_zero] at h0
      have ht : t.flatMap contents = [] := by
        rw [List.flatMap_eq_nil_iff]
        intro x hx
        have := contents_length x (hv x (by simp [hx]))
        have h1 := h0 x hx
        simp at h1
        exact List.length_eq_zero_iff.mp (by omega)
      rw [List.flatMap_cons, ht, List.append_nil]
      cases i with
      | zero => simp at hi; rw [hi]
      | succ i =>
        simp only [List.getElem?_cons_succ] at hi
        have := h0 d (List.mem_of_getElem? hi)
        simp at this
        exact absurd this hd

/-! Exclusive or -/

theorem xorWord_ok (mode : Mode) (w cap a1 a2 : Nat) (l1 l2 : List Byte) (i : Nat) (out : List Byte)
    (h1 : i + w ≤ l1.length) (h2 : i + w ≤ l2.length) (hc : out.length + w ≤ cap)
    (ha : mode = .wrap ∨ ((a1 + i) % w = 0 ∧ (a2 + i) % w = 0)) :
    xorWord mode w cap a1 a2 (some l1) (some l2) i out =
      .ok (out ++ List.zipWith (· ^^^ ·) ((l1.drop i).take w) ((l2.drop i).take w)) := by
  have e : ∀ (a : Nat) (l : List Byte), i + w ≤ l.length → (mode = .wrap ∨ (a + i) % w = 0) →
      loadWord mode w a (some l) i = .ok ((l.drop i).take w) := by
    intro a l hl ha
    unfold loadWord
    simp only []
    rw [if_neg, if_pos hl]
    rintro ⟨rfl, h⟩
    rcases ha with h' | h'
    · cases h'
    · exact h h'
  rw [xorWord, e a1 l1 h1 (by rcases ha with h | h; exact .inl h; exact .inr h.1), ok_bind,
    e a2 l2 h2 (by rcases ha with h | h; exact .inl h; exact .inr h.2), ok_bind, if_pos hc]

theorem zipWith_take_add (l1 l2 : List Byte) (i w : Nat) :
    List.zipWith (· ^^^ ·) (l1.take i) (l2.take i) ++ List.zipWith (· ^^^ ·) ((l1.drop i).take w) ((l2.drop i).take w) =
    List.zipWith (· ^^^ ·) (l1.take (i + w)) (l2.take (i + w)) := by
  rw [← List.take_zipWith, ← List.take_zipWith, ← List.take_zipWith, ← List.drop_zipWith, List.take_add]

theorem zipWith_take_len (l1 l2 : List Byte) (i : Nat) (h1 : i ≤ l1.length) (h2 : i ≤ l2.length) :
    (List.zipWith (· ^^^ ·) (l1.take i) (l2.take i)).length = i := by
  simp; omega

theorem xorWords_ok (mode : Mode) (w size a1 a2 : Nat) (l1 l2 : List Byte) (hw : 0 < w) (h1 : size ≤ l1.length) (h2 : size ≤ l2.length)
    (ha : mode = .wrap ∨ size < w ∨ (a1 % w = 0 ∧ a2 % w = 0)) : ∀ (fuel k : Nat), k * w ≤ size → size < fuel + k * w →
    ∃ i, i ≤ size ∧ size < i + w ∧ xorWords mode w size a1 a2 (some l1) (some l2) fuel (k * w)
      (List.zipWith (· ^^^ ·) (l1.take (k * w)) (l2.take (k * w))) =
      .ok (i, List.zipWith (· ^^^ ·) (l1.take i) (l2.take i)) := by
  intro fuel
  induction fuel with
  | zero => intro k hk hf; omega
  | succ f ih =>
    intro k hk hf
    rw [xorWords]
    by_cases hc : k * w + w ≤ size
    · have hl := zipWith_take_len l1 l2 (k * w) (by omega) (by omega)
      rw [if_pos hc, xorWord_ok mode w size a1 a2 l1 l2 _ _ (by omega) (by omega) (by omega) (by
        rcases ha with h | h | h
        · exact .inl h
        · omega
        · exact .inr ⟨by rw [Nat.add_mul_mod_self_right]; exact h.1, by rw [Nat.add_mul_mod_self_right]; exact h.2⟩), ok_bind, zipWith_take_add]
      have e : k * w + w = (k + 1) * w := by rw [Nat.add_mul]; omega
      rw [e] at hc ⊢
      exact ih (k + 1) hc (by omega)
    · rw [if_neg hc]
      exact ⟨k * w, hk, by omega, rfl⟩

theorem xorTail_ok (mode : Mode) (size : Nat) (l1 l2 : List Byte) (h1 : size ≤ l1.length) (h2 : size ≤ l2.length) : ∀ (fuel i : Nat),
    i ≤ size → size < fuel + i →
    xorTail mode size (some l1) (some l2) fuel i (List.zipWith (· ^^^ ·) (l1.take i) (l2.take i)) =
      .ok (List.zipWith (· ^^^ ·) (l1.take size) (l2.take size)) := by
  intro fuel
  induction fuel with
  | zero => intro i hi hf; omega
  | succ f ih =>
    intro i hi hf
    rw [xorTail]
    by_cases hc : i < size
    · have hl := zipWith_take_len l1 l2 i (by omega) (by omega)
      rw [if_pos hc, xorWord_ok mode 1 size 0 0 l1 l2 _ _ (by omega) (by omega) (by omega) (.inr ⟨by omega, by omega⟩), ok_bind, zipWith_take_add]
      exact ih (i + 1) (by omega) (by omega)
    · rw [if_neg hc]
      have : i = size := by omega
      rw [this]

end Verif.Misc
