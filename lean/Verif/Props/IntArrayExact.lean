import Verif.Proof.IntArrayExact
import Verif.Props.IntArray

/-!
# What the functions of int arrays do with arrays of any size (C45 - C47, C115)

C45 and C46 hold for arrays of at most 2^31 ints. Here is what happens to the other ones (which
have less than 2^32 ints, since `GArray.len` is a `guint`): only the first 2^31 ints are looked
at.
-/

namespace Verif.IntArray
open Verif.C Spec

/-- **C45** for arrays of any size. What's returned is the first index, converted to an `int`;
-1 is returned only if the value isn't there, but `gutil_int_array_contains` doesn't see what's
behind the first 2^31 ints. -/
theorem C45_exactly (l : List Val) (h : l.length < 2 ^ 32) (v : Val) :
    (v ∉ l → find (I l) v = .ok (-1)) ∧
    (∀ k : Nat, l[k]? = some v → v ∉ l.take k → find (I l) v = .ok (if k < 2 ^ 31 then (k : Int) else (k : Int) - 2 ^ 32)) ∧
    contains (I l) v = .ok (decide (v ∈ l.take (2 ^ 31))) := by
  refine ⟨find_absent l v, fun k h1 h2 => find_first h h1 h2, ?_⟩
  rw [contains]
  rcases find_any l h v with ⟨hn, e⟩ | ⟨k, hk, h1, h2, e⟩
  · rw [e, ok_bind]
    have : v ∉ l.take (2 ^ 31) := fun hm => hn (List.mem_of_mem_take hm)
    rw [decide_eq_false this]
    rfl
  · rw [e, ok_bind]
    have := mem_take_first h1 h2 (2 ^ 31)
    by_cases hlt : k < 2 ^ 31
    · rw [if_pos hlt, decide_eq_true (this.2 hlt), decide_eq_true (by omega : (k : Int) ≥ 0)]
    · rw [if_neg hlt, decide_eq_false (fun hm => hlt (this.1 hm)), decide_eq_false (by omega : ¬ (k : Int) - 2 ^ 32 ≥ 0)]

/-- An array of 2^31 + 1 ints. -/
example (n : Nat) (hn : n = 2 ^ 31) : contains (I (List.replicate n 0 ++ [1])) 1 = .ok false ∧
    find (I (List.replicate n 0 ++ [1])) 1 = .ok (-2 ^ 31) := by
  have h := C45_exactly (List.replicate n 0 ++ [1]) (by simp only [List.length_append, List.length_replicate, List.length_singleton]; omega) 1
  have hn0 : (1 : Val) ∉ (List.replicate n (0 : Val)) := by
    intro hm
    exact absurd (List.eq_of_mem_replicate hm) (by decide)
  have ht : (List.replicate n (0 : Val) ++ [1]).take n = List.replicate n 0 :=
    List.take_left' List.length_replicate
  refine ⟨?_, ?_⟩
  · rw [h.2.2, ← hn, ht, decide_eq_false hn0]
  · rw [h.2.1 n (by rw [List.getElem?_append_right (by rw [List.length_replicate]; exact Nat.le_refl _), List.length_replicate, Nat.sub_self]; rfl)
      (by rw [ht]; exact hn0), if_neg (by omega)]
    congr 1
    omega

/-- **C46** for arrays of any size. The first occurrence is removed if it's one of the first 2^31
ints, and otherwise nothing happens. Removing all removes the first one as long as there's one
among the first 2^31 ints (which may be fewer than all of them), and the number of those is
returned. -/
theorem C46_exactly (l : List Val) (h : l.length < 2 ^ 32) (v : Val) :
    remove (I l) v = .ok (I (if v ∈ l.take (2 ^ 31) then l.erase v else l), decide (v ∈ l.take (2 ^ 31))) ∧
    (∃ l', removeFast (I l) v = .ok (I l', decide (v ∈ l.take (2 ^ 31))) ∧
      l'.Perm (if v ∈ l.take (2 ^ 31) then l.erase v else l)) ∧
    (∃ r, removeAll (I l) v = .ok (I (eraseN v r l), r) ∧ v ∉ (eraseN v r l).take (2 ^ 31) ∧
      ∀ j < r, v ∈ (eraseN v j l).take (2 ^ 31)) ∧
    (∃ r l', removeAllFast (I l) v = .ok (I l', r) ∧ l'.Perm (eraseN v r l) ∧ r ≤ l.count v ∧ v ∉ l'.take (2 ^ 31)) := by
  refine ⟨remove_any l h v, removeFast_any l h v, ?_, ?_⟩
  · obtain ⟨r, h1, h2, h3⟩ := removeAllLoop_any v (l.length + 1) l 0 (by omega) h (by omega)
    refine ⟨r, ?_, h2, h3⟩
    rw [Nat.zero_add] at h1
    rw [removeAll, ← h1]
    simp
  · obtain ⟨r, l', h1, h2, h3, h4⟩ := removeAllFastLoop_any v (l.length + 1) l 0 (by omega) h (by omega)
    refine ⟨r, l', ?_, h2, h3, h4⟩
    rw [Nat.zero_add] at h1
    rw [removeAllFast, ← h1]
    simp

example : eraseN 1 2 ([1, 2, 1, 3] : List Val) = [2, 3] ∧ (1 : Val) ∈ (eraseN 1 1 ([1, 2, 1, 3] : List Val)) ∧
    removeAll (I [1, 2, 1, 3]) 1 = .ok (I (eraseN 1 2 [1, 2, 1, 3]), 2) := by decide

/-- **C47** for all the positions and counts: the call fails if the position is in the array and
the sum of position and count isn't a `guint`, and otherwise exactly the given range is
removed. -/
theorem C47_exactly (l : List Val) (h : l.length < 2 ^ 32) (pos count : Nat) (hc : count < 2 ^ 32) :
    (pos < l.length ∧ 2 ^ 32 ≤ pos + count → removeRange (I l) pos count = .error .badArg) ∧
    (¬ (pos < l.length ∧ 2 ^ 32 ≤ pos + count) →
      removeRange (I l) pos count = .ok (I (l.take pos ++ l.drop (pos + count)))) := by
  refine ⟨fun hh => C47_refuted l h pos count hh.1 hc hh.2, fun hh => ?_⟩
  by_cases hlt : pos + count < 2 ^ 32
  · exact C47_range_partial l h pos count hlt
  · have hp : ¬ pos < l.length := fun hp => hh ⟨hp, by omega⟩
    rw [removeRange, if_neg (by simp; intro h; exact absurd h hp), List.take_of_length_le (by omega),
      List.drop_eq_nil_of_le (by omega)]
    simp

example : ¬ ((3 : Nat) < ([1, 2, 3] : List Val).length ∧ 2 ^ 32 ≤ 3 + (2 ^ 32 - 1)) ∧
    (1 : Nat) < ([1, 2, 3] : List Val).length ∧ 2 ^ 32 ≤ 1 + (2 ^ 32 - 1) := by decide

/-- **C115** for all the sizes which a `guint` can have: making the array fails exactly if the size in bytes, as a `guint`, is more than
the largest number of elements. Otherwise there's room for that many elements, and the ints are there. -/
theorem C115_exactly (limit n : Nat) (vals : List Val) (h : vals.length < 2 ^ 32) :
    (sizedNew limit n = .error .badArg ↔ limit < n * 4 % 2 ^ 32) ∧
    (n * 4 % 2 ^ 32 ≤ limit → sizedNew limit n = .ok (I [], n * 4 % 2 ^ 32)) ∧
    (newFromVals limit vals = .error .badArg ↔ limit < vals.length * 4 % 2 ^ 32) ∧
    (vals.length * 4 % 2 ^ 32 ≤ limit → newFromVals limit vals = .ok (I vals)) := by
  have key : ∀ n, n * 4 % 2 ^ 32 ≤ limit → sizedNew limit n = .ok (I [], n * 4 % 2 ^ 32) := by
    intro n hn
    unfold sizedNew gSizedNew
    rw [if_pos hn]
    rfl
  have key' : ∀ n, limit < n * 4 % 2 ^ 32 → sizedNew limit n = .error .badArg := by
    intro n hn
    unfold sizedNew gSizedNew
    rw [if_neg (by omega)]
    rfl
  have kv : vals.length * 4 % 2 ^ 32 ≤ limit → newFromVals limit vals = .ok (I vals) := by
    intro hn
    unfold newFromVals
    rw [key _ hn]
    by_cases h0 : vals.length = 0
    · have : vals = [] := List.length_eq_zero_iff.1 h0
      subst this
      rfl
    · rw [ok_bind]
      unfold appendVals gAppendVals
      dsimp only
      rw [if_pos (by simpa using h)]
      rfl
  have kv' : limit < vals.length * 4 % 2 ^ 32 → newFromVals limit vals = .error .badArg := by
    intro hn
    unfold newFromVals
    rw [key' _ hn]
    rfl
  refine ⟨⟨fun e => ?_, key' n⟩, key n, ⟨fun e => ?_, kv'⟩, kv⟩
  · rcases Nat.lt_or_ge limit (n * 4 % 2 ^ 32) with h | h
    · exact h
    · rw [key n h] at e; cases e
  · rcases Nat.lt_or_ge limit (vals.length * 4 % 2 ^ 32) with h | h
    · exact h
    · rw [kv h] at e; cases e

/-- With room for more than 2^30 ints asked for, there's room for one of them. -/
example : (2 ^ 30 + 1) * 4 % 2 ^ 32 = 4 ∧ (2 ^ 30 - 1 : Nat) < 2 ^ 29 * 4 % 2 ^ 32 ∧ ([1, 2] : List Val).length * 4 % 2 ^ 32 ≤ 2 ^ 30 - 1 := by
  decide

end Verif.IntArray
