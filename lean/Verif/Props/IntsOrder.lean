import Verif.Props.Ints
import Verif.Spec.IntsOrder

/-!
# The order of blocks of ints: C156
-/

namespace Verif.Ints
open Verif.C Spec

theorem cmpBytes_lt : ∀ s t : List Byte, cmpBytes s t < 0 ↔ s < t
  | [], [] => by simp [cmpBytes]
  | [], b :: t => by simp [cmpBytes]
  | a :: s, [] => by simp [cmpBytes]
  | a :: s, b :: t => by
    have ih := cmpBytes_lt s t
    rw [List.cons_lt_cons_iff, BitVec.lt_def, cmpBytes]
    by_cases h : a = b
    · subst h; simp [ih]
    · by_cases h' : a.toNat < b.toNat <;> simp [h, h']

theorem four_lt (a b c d a' b' c' d' : Byte) (s t : List Byte) : a :: b :: c :: d :: s < a' :: b' :: c' :: d' :: t ↔
    (a.toNat * 256 ^ 3 + b.toNat * 256 ^ 2 + c.toNat * 256 + d.toNat < a'.toNat * 256 ^ 3 + b'.toNat * 256 ^ 2 + c'.toNat * 256 + d'.toNat ∨
      a.toNat * 256 ^ 3 + b.toNat * 256 ^ 2 + c.toNat * 256 + d.toNat = a'.toNat * 256 ^ 3 + b'.toNat * 256 ^ 2 + c'.toNat * 256 + d'.toNat ∧ s < t) := by
  simp only [List.cons_lt_cons_iff, BitVec.lt_def, ← BitVec.toNat_inj]
  have h1 := a.isLt
  have h2 := b.isLt
  have h3 := c.isLt
  have h4 := d.isLt
  have h5 := a'.isLt
  have h6 := b'.isLt
  have h7 := c'.isLt
  have h8 := d'.isLt
  by_cases hst : s < t <;> simp only [hst, and_true, and_false, or_false] <;> omega

theorem bytes_lt (le : Bool) : ∀ a b : List Val, bytes le a < bytes le b ↔ a.map (weight le) < b.map (weight le)
  | [], [] => by simp [bytes]
  | [], b :: t => by cases le <;> simp [bytes, bytesOf]
  | a :: s, [] => by cases le <;> simp [bytes, bytesOf]
  | a :: s, b :: t => by
    have ih := bytes_lt le s t
    have ha := a.isLt
    have hb := b.isLt
    have e : ∀ (x : Val) (l : List Val), bytes le (x :: l) = bytesOf le x ++ bytes le l := fun _ _ => rfl
    rw [e, e, List.map_cons, List.map_cons, List.cons_lt_cons_iff, ← ih]
    cases le
    · simp only [bytesOf, List.reverse_cons, List.reverse_nil, List.nil_append, List.cons_append, Bool.false_eq_true, if_false, four_lt, weight,
        BitVec.extractLsb'_toNat, Nat.shiftRight_eq_div_pow]
      have q : ∀ x : Nat, x < 2 ^ 32 → x / 2 ^ 24 % 2 ^ 8 * 256 ^ 3 + x / 2 ^ 16 % 2 ^ 8 * 256 ^ 2 + x / 2 ^ 8 % 2 ^ 8 * 256 + x / 2 ^ 0 % 2 ^ 8 = x := by
        intro x hx; omega
      rw [q _ ha, q _ hb]
    · simp only [bytesOf, List.nil_append, List.cons_append, if_true, four_lt, weight,
        BitVec.extractLsb'_toNat, Nat.shiftRight_eq_div_pow]
      have q : ∀ x : Nat, x < 2 ^ 32 → x / 2 ^ 0 % 2 ^ 8 * 256 ^ 3 + x / 2 ^ 8 % 2 ^ 8 * 256 ^ 2 + x / 2 ^ 16 % 2 ^ 8 * 256 + x / 2 ^ 24 % 2 ^ 8 =
          x % 256 * 256 ^ 3 + x / 256 % 256 * 256 ^ 2 + x / 256 ^ 2 % 256 * 256 + x / 256 ^ 3 := by
        intro x hx; omega
      rw [q _ ha, q _ hb]

/-- **C156** The first int which differs decides, but it's not the ints that are compared, it's the numbers whose most significant bytes come first in memory.
If there's no such int, then the shorter block is less. -/
theorem C156_exactly (le : Bool) (a b : List Val) :
    (compare le (some a) (some b) < 0 ↔ a.map (weight le) < b.map (weight le)) ∧
    (compare le (some a) (some b) > 0 ↔ b.map (weight le) < a.map (weight le)) := by
  have h : ∀ a b : List Val, compare le (some a) (some b) < 0 ↔ a.map (weight le) < b.map (weight le) := by
    intro a b
    rw [compare_some, cmpBytes_lt, bytes_lt]
  refine ⟨h a b, ?_⟩
  rw [← h b a, compare_swap le (some a) (some b)]
  omega

/-- **C156** (partial) On a big-endian machine, blocks of non-negative ints are in the lexicographic order. That's not true in general, see `C156_refuted`. -/
theorem C156_order_partial (a b : List Val) (ha : ∀ x ∈ a, 0 ≤ x.toInt) (hb : ∀ x ∈ b, 0 ≤ x.toInt) :
    compare false (some a) (some b) < 0 ↔ a.map BitVec.toInt < b.map BitVec.toInt := by
  rw [(C156_exactly false a b).1]
  induction a generalizing b with
  | nil => cases b <;> simp
  | cons x a ih =>
    cases b with
    | nil => simp
    | cons y b =>
      simp only [List.map_cons, List.cons_lt_cons_iff]
      rw [ih b (fun z hz => ha z (List.mem_cons_of_mem _ hz)) (fun z hz => hb z (List.mem_cons_of_mem _ hz))]
      have h1 := ha x List.mem_cons_self
      have h2 := hb y List.mem_cons_self
      have e : ∀ z : Val, 0 ≤ z.toInt → z.toInt = (weight false z : Int) := by
        intro z hz
        have : weight false z = z.toNat := rfl
        rw [this]
        have := z.isLt
        rw [BitVec.toInt_eq_toNat_cond] at hz ⊢
        split at hz <;> split <;> omega
      rw [e x h1, e y h2]
      simp only [Int.ofNat_lt, Int.natCast_inj]

/-- **C156** On a little-endian machine, 256 is less than 1; on a big-endian machine, -1 is more than 1. -/
theorem C156_refuted :
    (compare true (some [256#32]) (some [1#32]) < 0 ∧ (1#32).toInt < (256#32).toInt) ∧
    (compare false (some [1#32]) (some [BitVec.ofInt 32 (-1)]) < 0 ∧ (BitVec.ofInt 32 (-1)).toInt < (1#32).toInt) := by
  decide +kernel

/-- The hypotheses are met. -/
example : compare false (some [1, 2]) (some [1, 256]) < 0 ∧ ([1, 2] : List Int) < [1, 256] ∧ compare false (some [1, 2]) (some [1, 2, 0]) < 0 := by decide +kernel

/-- Little-endian: the byte which comes first matters most. -/
example : weight true 0x01020304#32 = 0x04030201 ∧ weight false 0x01020304#32 = 0x01020304 ∧ compare true (some [0x100#32, 5]) (some [1, 0]) < 0 := by decide +kernel

end Verif.Ints
