import Verif.Proof.IntArraySelf

/-!
# Elements of an int array being added to the same array (C124)

`gutil_int_array_append_vals(array, array->data + i, n)`, and the same for the other two functions.
-/

namespace Verif.IntArray.Self
open Verif.C Spec

/-- The size is rounded up to a power of two, 16 bytes being the minimum. -/
def gnu (strict : Bool) : Platform where
  grow n := max 4 (2 ^ ((n - 1).log2 + 1))
  limit := 2 ^ 30 - 1
  strict := strict

/-- The array `[1, 2, ... n]`, its elements having been appended one by one -/
def upTo (pl : Platform) : Nat → M GArr
  | 0 => .ok new
  | n + 1 => do
    let a ← upTo pl n
    appendVals pl a (.other [BitVec.ofNat 32 (n + 1)])

/-- **C124** Values which are elsewhere are always added as they are, to the place where they belong. -/
theorem C124_other {pl : Platform} {a : GArr} {v : List Val} {wh : Where} (hg : ∀ n, n ≤ pl.grow n) (hw : a.len ≤ a.mem.length)
    (hn : v ≠ []) (hp : wh.index a ≤ a.len) (hl : a.len + v.length ≤ pl.limit) :
    ∃ a', add pl a (.other v) wh = .ok a' ∧ a'.len = a.len + v.length ∧ a'.len ≤ a'.mem.length ∧
      a'.contents = inserted a.contents (wh.index a) (v.map some) := by
  have hc : 0 < (Src.other v).count := List.length_pos_iff.2 hn
  rw [add_eq pl hg hw hc hp hl]
  rcases Nat.lt_or_ge a.mem.length (a.len + v.length) with h | h
  · have e := expand_grow (pl := pl) (a := a) (n := v.length) hl h
    simp only [show (Src.other v).count = v.length from rfl, e, ok_bind]
    have hb : a.len + v.length ≤ (a.mem ++ List.replicate (pl.grow (a.len + v.length) - a.mem.length) none).length := by
      have := hg (a.len + v.length)
      simp
      omega
    obtain ⟨a', h1, h2, h3, h4⟩ := place_other (pl := pl) (m := true) (p := wh.index a) (v := v)
      (a := { a with mem := a.mem ++ List.replicate (pl.grow (a.len + v.length) - a.mem.length) none }) hb hp
    refine ⟨a', by cases wh <;> exact h1, h2, by rw [h2, h3]; exact hb, ?_⟩
    rw [h4]
    congr 1
    simp only [GArr.contents, List.take_append_of_le_length hw]
  · have e := expand_room (pl := pl) (a := a) (n := v.length) hl h
    simp only [show (Src.other v).count = v.length from rfl, e, ok_bind]
    obtain ⟨a', h1, h2, h3, h4⟩ := place_other (pl := pl) (m := false) (p := wh.index a) (v := v) h hp
    exact ⟨a', h1, h2, by rw [h2, h3]; exact h, h4⟩

example : ∃ a, upTo (gnu true) 6 = .ok a ∧ a.len ≤ a.mem.length ∧ a.contents = [some 1, some 2, some 3, some 4, some 5, some 6] :=
  ⟨⟨[some 1, some 2, some 3, some 4, some 5, some 6, none, none], 6⟩, by decide +kernel, by decide, by decide⟩

example (n : Nat) (b : Bool) : n ≤ (gnu b).grow n := by
  show n ≤ max 4 (2 ^ ((n - 1).log2 + 1))
  have := Nat.lt_log2_self (n := n - 1)
  omega

/-- **C124** If there's enough memory, and the elements are before the place where they are being added (in particular, if that's the
end of the array) then copies of those elements are added there. What's missing: the other cases, see below. -/
theorem C124_before_partial {pl : Platform} {a : GArr} {i n : Nat} {wh : Where} (hg : ∀ n, n ≤ pl.grow n) (hw : a.len ≤ a.mem.length)
    (hn : 0 < n) (hp : wh.index a ≤ a.len) (hl : a.len + n ≤ pl.limit) (hi : i + n ≤ wh.index a) (hr : a.len + n ≤ a.mem.length) :
    ∃ a', add pl a (.own i n) wh = .ok a' ∧ a'.len = a.len + n ∧
      a'.contents = inserted a.contents (wh.index a) (part a.contents i n) := by
  rw [add_eq pl hg hw (src := .own i n) hn hp hl]
  have e := expand_room (pl := pl) (a := a) (n := n) hl hr
  simp only [show (Src.own i n).count = n from rfl, e, ok_bind]
  obtain ⟨a', h1, h2, _, h4⟩ := place_own (pl := pl) hr hp (i := i) (by omega) (by omega)
  refine ⟨a', h1, h2, ?_⟩
  rw [h4]
  congr 1
  have hc : a.contents.length = a.len := by simp only [GArr.contents, List.length_take]; omega
  apply List.ext_getElem?
  intro k
  simp only [part, List.getElem?_take, List.getElem?_drop, List.getElem?_append, List.length_take, hc]
  split
  · rw [if_pos (by omega), if_pos (by omega)]
  · rfl

/-- There's room for two more elements in this array. -/
example : ∃ a a', upTo (gnu true) 6 = .ok a ∧ add (gnu true) a (.own 3 2) .back = .ok a' ∧
    a'.contents = [some 1, some 2, some 3, some 4, some 5, some 6, some 4, some 5] :=
  ⟨⟨[some 1, some 2, some 3, some 4, some 5, some 6, none, none], 6⟩, ⟨[some 1, some 2, some 3, some 4, some 5, some 6, some 4, some 5], 8⟩,
    by decide +kernel, by decide +kernel, by decide⟩

/-- **C124** What happens in all cases. If there's not enough memory then the elements are read after the memory has been released. Otherwise,
the elements are read after those which follow have been moved, which means that if they were after the place where
they are being added then other elements are read instead. And if the memory overlaps then C says that it's undefined. -/
theorem C124_exactly {pl : Platform} {a : GArr} {i n : Nat} {wh : Where} (hg : ∀ n, n ≤ pl.grow n) (hw : a.len ≤ a.mem.length)
    (hn : 0 < n) (hp : wh.index a ≤ a.len) (hl : a.len + n ≤ pl.limit) (hi : i + n ≤ a.len) :
    if a.mem.length < a.len + n then add pl a (.own i n) wh = .error .useAfterFree
    else if pl.strict = true ∧ i < wh.index a + n ∧ wh.index a < i + n then add pl a (.own i n) wh = .error .badArg
    else ∃ a', add pl a (.own i n) wh = .ok a' ∧ a'.len = a.len + n ∧
      (i ≤ wh.index a → a'.contents = inserted a.contents (wh.index a) (part a.contents i n)) ∧
      (wh.index a + n ≤ i → a'.contents = inserted a.contents (wh.index a) (part a.contents (i - n) n)) ∧
      (wh.index a < i → i < wh.index a + n → a'.contents = inserted a.contents (wh.index a)
        (part a.contents i (wh.index a + n - i) ++ part a.contents (wh.index a) (i - wh.index a))) := by
  rw [add_eq pl hg hw (src := .own i n) hn hp hl]
  have hc : a.contents.length = a.len := by simp only [GArr.contents, List.length_take]; omega
  split
  · rename_i h
    have e := expand_grow (pl := pl) (a := a) (n := n) hl h
    simp only [show (Src.own i n).count = n from rfl, e, ok_bind]
    have hb : a.len + n ≤ (a.mem ++ List.replicate (pl.grow (a.len + n) - a.mem.length) none).length := by
      have := hg (a.len + n)
      simp
      omega
    have := place_moved (pl := pl) (p := wh.index a) (i := i) (n := n)
      (a := { a with mem := a.mem ++ List.replicate (pl.grow (a.len + n) - a.mem.length) none }) hb hp
    cases wh <;> exact this
  · rename_i h
    have e := expand_room (pl := pl) (a := a) (n := n) hl (by omega)
    simp only [show (Src.own i n).count = n from rfl, e, ok_bind]
    split
    · rename_i ho
      exact place_overlap (by omega) hp ho
    · rename_i ho
      obtain ⟨a', h1, h2, _, h4⟩ := place_own (pl := pl) (a := a) (p := wh.index a) (i := i) (n := n) (by omega) hp hi ho
      refine ⟨a', h1, h2, fun q => ?_, fun q => ?_, fun q1 q2 => ?_⟩ <;> rw [h4] <;> congr 1 <;> apply List.ext_getElem? <;> intro k <;>
        simp only [part, List.getElem?_take, List.getElem?_drop, List.getElem?_append, List.length_take, List.length_drop, hc] <;>
        (repeat' split) <;> first | rfl | omega | (congr 1; omega) | (simp; omega) | (exfalso; omega)

/-- The elements of `[1, 2, 3, 4, 5]`: the third one is added to the front of the array, but it's the second one which gets there. -/
example : ∃ a a', upTo (gnu true) 5 = .ok a ∧ add (gnu true) a (.own 2 1) .front = .ok a' ∧
    a'.contents = [some 2, some 1, some 2, some 3, some 4, some 5] :=
  ⟨⟨[some 1, some 2, some 3, some 4, some 5, none, none, none], 5⟩, ⟨[some 2, some 1, some 2, some 3, some 4, some 5, none, none], 6⟩,
    by decide +kernel, by decide +kernel, by decide⟩

/-- **C124** is false: a full array being appended to itself is used after it has been released, whatever its contents, and whichever
function is used. -/
theorem C124_full_refuted {pl : Platform} {a : GArr} {wh : Where} (hg : ∀ n, n ≤ pl.grow n) (hf : a.len = a.mem.length) (hn : 0 < a.len)
    (hp : wh.index a ≤ a.len) (hl : a.len + a.len ≤ pl.limit) : add pl a (.own 0 a.len) wh = .error .useAfterFree := by
  have := C124_exactly (pl := pl) (a := a) (i := 0) (n := a.len) (wh := wh) hg (by omega) hn hp hl (by omega)
  rwa [if_pos (by omega)] at this

/-- A full array with four elements which have been appended one by one -/
example : ∃ a, upTo (gnu false) 4 = .ok a ∧ a.len = a.mem.length ∧ a.len = 4 ∧ add (gnu false) a (.own 0 4) .back = .error .useAfterFree :=
  ⟨⟨[some 1, some 2, some 3, some 4], 4⟩, by decide +kernel, by decide, by decide, by decide +kernel⟩

/-- **C124** is false even if there's enough memory: elements which are after the place where they are being added are replaced by others. -/
theorem C124_after_refuted : ∃ a a', upTo (gnu true) 5 = .ok a ∧ a.contents = [some 1, some 2, some 3, some 4, some 5] ∧
    a.len + 1 ≤ a.mem.length ∧ add (gnu true) a (.own 2 1) .front = .ok a' ∧ a'.contents ≠ inserted a.contents 0 (part a.contents 2 1) :=
  ⟨⟨[some 1, some 2, some 3, some 4, some 5, none, none, none], 5⟩, ⟨[some 2, some 1, some 2, some 3, some 4, some 5, none, none], 6⟩,
    by decide +kernel, by decide, by decide, by decide +kernel, by decide⟩

/-- **C124** Beyond the end of the array, the elements are right if there's enough memory; whatever is in between isn't initialised
(C82). -/
theorem C124_beyond_exactly {pl : Platform} {a : GArr} {i n p : Nat} (hg : ∀ n, n ≤ pl.grow n) (hw : a.len ≤ a.mem.length)
    (hn : 0 < n) (hp : a.len < p) (hl : p + n ≤ pl.limit) (hi : i + n ≤ a.len) :
    if a.mem.length < p + n then add pl a (.own i n) (.pos p) = .error .useAfterFree
    else ∃ a' gap, add pl a (.own i n) (.pos p) = .ok a' ∧ gap.length = p - a.len ∧ a'.contents = a.contents ++ gap ++ part a.contents i n := by
  have hc : a.contents.length = a.len := by simp only [GArr.contents, List.length_take]; omega
  simp only [add, insertVals, gInsertVals, if_neg (show ¬ (Src.own i n).count = 0 by simp only [Src.count]; omega), if_pos (show a.len ≤ p by omega)]
  rw [show (Src.own i n).count = n from rfl]
  split
  · rename_i h
    rw [expand_grow (by omega) (by omega), ok_bind]
    dsimp only
    have hb : p + n ≤ (a.mem ++ List.replicate (pl.grow (a.len + (p - a.len + n)) - a.mem.length) none).length := by
      have := hg (a.len + (p - a.len + n))
      simp
      omega
    generalize a.mem ++ List.replicate (pl.grow (a.len + (p - a.len + n)) - a.mem.length) none = m at hb
    rw [gSetSize, if_pos (by exact hp), expand_room (by dsimp only; omega) (by dsimp only; omega), ok_bind, ok_bind]
    dsimp only
    rw [gAppendVals, if_neg (show ¬ (Src.own i n).count = 0 by simp only [Src.count]; omega), expand_room (by exact hl) (by exact hb), ok_bind]
    rfl
  · rename_i h
    rw [expand_room (by omega) (by omega), ok_bind]
    dsimp only
    rw [gSetSize, if_pos hp, expand_room (by omega) (by omega), ok_bind, ok_bind]
    dsimp only
    rw [gAppendVals, if_neg (show ¬ (Src.own i n).count = 0 by simp only [Src.count]; omega), expand_room (by exact hl) (by dsimp only [Src.count]; omega), ok_bind]
    have hv : ((a.mem.drop i).take n).length = n := by simp only [List.length_take, List.length_drop]; omega
    dsimp only
    rw [show (false || false || false) = false from rfl, copy_own (by omega) (by show i + n ≤ a.mem.length; omega), write, if_pos (by rw [hv]; show p + n ≤ a.mem.length; omega), ok_bind]
    refine ⟨_, (a.mem.drop a.len).take (p - a.len), rfl, by simp only [List.length_take, List.length_drop]; omega, ?_⟩
    simp only [GArr.contents, part, hv, Src.count]
    apply List.ext_getElem?
    intro k
    simp only [List.getElem?_take, List.getElem?_drop, List.getElem?_append, List.length_append, List.length_take, List.length_drop]
    (repeat' split) <;> first | rfl | omega | (congr 1; omega) | (simp; omega) | (exfalso; omega)

example : ∃ a a', upTo (gnu true) 5 = .ok a ∧ add (gnu true) a (.own 1 2) (.pos 6) = .ok a' ∧
    a'.contents = [some 1, some 2, some 3, some 4, some 5, none, some 2, some 3] :=
  ⟨⟨[some 1, some 2, some 3, some 4, some 5, none, none, none], 5⟩, ⟨[some 1, some 2, some 3, some 4, some 5, none, some 2, some 3], 8⟩,
    by decide +kernel, by decide +kernel, by decide⟩

/-- **C124** How much memory there is in the beginning: four times as much as requested (C115), modulo 2^32. -/
theorem C124_reserved_exactly (pl : Platform) (r : Nat) :
    if pl.limit < r * 4 % 2 ^ 32 then sizedNew pl r = .error .badArg
    else ∃ a, sizedNew pl r = .ok a ∧ a.contents = [] ∧ a.len = 0 ∧
      a.mem.length = if r * 4 % 2 ^ 32 = 0 then 0 else pl.grow (r * 4 % 2 ^ 32) := by
  generalize hk : r * 4 % 2 ^ 32 = k
  split
  · rename_i h
    simp only [sizedNew, expand, new, hk, Nat.zero_add, if_pos h, error_bind]
  · rename_i h
    by_cases h0 : k = 0
    · exact ⟨⟨[], 0⟩, by simp [sizedNew, expand, new, hk, h0, ok_bind], rfl, rfl, by simp [h0]⟩
    · refine ⟨⟨List.replicate (pl.grow k) none, 0⟩, ?_, rfl, rfl, by simp [h0]⟩
      simp only [sizedNew, expand, new, hk, Nat.zero_add, if_neg h, List.length_nil, if_pos (Nat.pos_of_ne_zero h0), ok_bind, List.nil_append, Nat.sub_zero]

/-- **C124** If there were enough elements reserved in the beginning then values added to the new array can be appended to themselves. What's
missing: other cases, see above. -/
theorem C124_reserved_partial {pl : Platform} {r : Nat} {v : List Val} (hg : ∀ n, n ≤ pl.grow n) (hl : r * 4 ≤ pl.limit) (h32 : r * 4 < 2 ^ 32)
    (hn : v ≠ []) (hv : v.length + v.length ≤ r) :
    ∃ a b c, sizedNew pl r = .ok a ∧ appendVals pl a (.other v) = .ok b ∧ b.contents = v.map some ∧
      appendVals pl b (.own 0 v.length) = .ok c ∧ c.contents = (v ++ v).map some := by
  have hv0 : 0 < v.length := List.length_pos_iff.2 hn
  have hr := C124_reserved_exactly pl r
  rw [Nat.mod_eq_of_lt h32, if_neg (by omega), if_neg (by omega)] at hr
  obtain ⟨a, h1, h2, h3, h4⟩ := hr
  have hm := hg (r * 4)
  have hb : ∃ b, appendVals pl a (.other v) = .ok b ∧ b.len = v.length ∧ b.mem.length = a.mem.length ∧ b.contents = v.map some := by
    have e := expand_room (pl := pl) (a := a) (n := v.length) (by omega) (by omega)
    obtain ⟨b, q1, q2, q3, q4⟩ := place_other (pl := pl) (a := a) (m := false) (p := a.len) (v := v) (by omega) (by omega)
    refine ⟨b, ?_, by omega, q3, ?_⟩
    · have := add_eq pl hg (a := a) (src := .other v) (wh := .back) (by omega) hv0 (Nat.le_refl _) (by simp only [Src.count]; omega)
      simp only [show (Src.other v).count = v.length from rfl, e, ok_bind] at this
      exact this.trans q1
    · rw [q4, h2, h3]; simp [inserted]
  obtain ⟨b, q1, q2, q3, q4⟩ := hb
  obtain ⟨c, r1, _, r3⟩ := C124_before_partial (pl := pl) (a := b) (i := 0) (n := v.length) (wh := .back) hg (by omega) hv0 (Nat.le_refl _)
    (by omega) (by simp only [Where.index]; omega) (by omega)
  refine ⟨a, b, c, h1, q1, q4, r1, ?_⟩
  rw [r3, q4]
  simp [inserted, part, Where.index, q2, List.take_of_length_le]

example : (∀ n, n ≤ (gnu true).grow n) ∧ 4 * 4 ≤ (gnu true).limit ∧ [1, 2].length + [1, 2].length ≤ 4 := by
  refine ⟨fun n => ?_, by decide, by decide⟩
  show n ≤ max 4 (2 ^ ((n - 1).log2 + 1))
  have := Nat.lt_log2_self (n := n - 1)
  omega

end Verif.IntArray.Self
