import Verif.Model.IntArraySelf

namespace Verif.IntArray.Self
open Verif.C Spec

local macro "split_all" : tactic => `(tactic| (repeat' split) <;> first | rfl | omega | (congr 1; omega) | (simp; omega) | grind)

/-- The memory after the elements have been moved -/
theorem moved_part {m : List (Option Val)} {len p n i : Nat} (h1 : len + n ≤ m.length) (hp : p ≤ len) (hi : i + n ≤ len) :
    ((m.take (p + n) ++ (m.take len).drop p ++ m.drop (p + n + (len - p))).drop i).take n =
    part ((m.take len).take (p + n) ++ (m.take len).drop p) i n := by
  unfold part
  apply List.ext_getElem?
  intro k
  simp only [List.getElem?_take, List.getElem?_drop, List.getElem?_append, List.length_append, List.length_take, List.length_drop]
  split_all

theorem moved_contents {m v : List (Option Val)} {len p n : Nat} (h1 : len + n ≤ m.length) (hp : p ≤ len) (hv : v.length = n) :
    let m1 := m.take (p + n) ++ (m.take len).drop p ++ m.drop (p + n + (len - p))
    (m1.take p ++ v ++ m1.drop (p + n)).take (len + n) = inserted (m.take len) p v := by
  unfold inserted
  apply List.ext_getElem?
  intro k
  simp only [List.getElem?_take, List.getElem?_drop, List.getElem?_append, List.length_append, List.length_take, List.length_drop]
  split_all

theorem back_contents {m v : List (Option Val)} {len n : Nat} (h1 : len + n ≤ m.length) (hv : v.length = n) :
    (m.take len ++ v ++ m.drop (len + n)).take (len + n) = inserted (m.take len) len v := by
  unfold inserted
  apply List.ext_getElem?
  intro k
  simp only [List.getElem?_take, List.getElem?_drop, List.getElem?_append, List.length_append, List.length_take, List.length_drop]
  split_all

theorem expand_room {pl : Platform} {a : GArr} {n : Nat} (hl : a.len + n ≤ pl.limit) (hr : a.len + n ≤ a.mem.length) :
    expand pl a n = .ok (a, false) := by
  rw [expand, if_neg (by omega), if_neg (by omega)]

theorem expand_grow {pl : Platform} {a : GArr} {n : Nat} (hl : a.len + n ≤ pl.limit) (hr : a.mem.length < a.len + n) :
    expand pl a n = .ok ({ a with mem := a.mem ++ List.replicate (pl.grow (a.len + n) - a.mem.length) none }, true) := by
  rw [expand, if_neg (by omega), if_pos hr]

/-- Where it goes -/
def Where.index (a : GArr) : Where → Nat
  | .back => a.len
  | .front => 0
  | .pos p => p

/-- The rest of the functions if the memory is large enough: the elements are moved, and new ones are copied. -/
def place (pl : Platform) (a : GArr) (m : Bool) (p : Nat) (src : Src) : M GArr := do
  let a ← write a (p + src.count) (a.contents.drop p)
  let a ← copy pl a m p src
  .ok { a with len := a.len + src.count }

theorem write_nil {a : GArr} {p : Nat} (h : p ≤ a.mem.length) : write a p [] = .ok a := by
  rw [write, if_pos (by simpa using h)]
  simp

/-- All three functions are the same if the place is inside the array, or at its end. -/
theorem add_eq (pl : Platform) {a : GArr} {src : Src} {wh : Where} (hg : ∀ n, n ≤ pl.grow n) (hw : a.len ≤ a.mem.length) (hn : 0 < src.count)
    (hp : wh.index a ≤ a.len) (hl : a.len + src.count ≤ pl.limit) :
    add pl a src wh = (do
      let (a, m) ← expand pl a src.count
      place pl a m (wh.index a) src) := by
  have key : ∃ a' m, expand pl a src.count = .ok (a', m) ∧ a'.len = a.len ∧ a.len + src.count ≤ a'.mem.length ∧
      expand pl a' src.count = .ok (a', false) := by
    rcases Nat.lt_or_ge a.mem.length (a.len + src.count) with h | h
    · refine ⟨_, _, expand_grow hl h, rfl, ?_, ?_⟩
      · have := hg (a.len + src.count)
        simp
        omega
      · refine expand_room (a := { mem := a.mem ++ List.replicate (pl.grow (a.len + src.count) - a.mem.length) none, len := a.len }) hl ?_
        have := hg (a.len + src.count)
        simp
        omega
    · exact ⟨_, _, expand_room hl h, rfl, h, expand_room hl h⟩
  obtain ⟨a', m, e, e1, e2, e3⟩ := key
  have hd : a'.contents.drop a.len = [] := by
    rw [List.drop_eq_nil_iff]
    simp only [GArr.contents, List.length_take]
    omega
  have hwr : write a' (a.len + src.count) [] = .ok a' := write_nil e2
  cases wh with
  | back =>
    simp only [add, appendVals, gAppendVals, Where.index, if_neg (show ¬ src.count = 0 by omega), e, ok_bind, place, Bool.false_or, e1, hd, hwr]
  | front =>
    simp only [add, prependVals, gPrependVals, Where.index, if_neg (show ¬ src.count = 0 by omega), e, ok_bind, place, Nat.zero_add, List.drop_zero]
  | pos p =>
    have hp : p ≤ a.len := hp
    by_cases hpl : a.len ≤ p
    · have : p = a.len := by omega
      subst this
      have hs : gSetSize pl a' a.len = .ok (a', false) := by rw [gSetSize, if_neg (by omega)]
      simp only [add, insertVals, gInsertVals, Where.index, if_neg (show ¬ src.count = 0 by omega), if_pos (Nat.le_refl _), Nat.sub_self, Nat.zero_add,
        e, ok_bind, place, hs, gAppendVals, e3, Bool.or_false, e1, hd, hwr]
    · simp only [add, insertVals, gInsertVals, Where.index, if_neg (show ¬ src.count = 0 by omega), if_neg hpl, e, ok_bind, place]

theorem place_gen {pl : Platform} {a : GArr} {m : Bool} {p : Nat} {src : Src} {v : List (Option Val)} (hr : a.len + src.count ≤ a.mem.length) (hp : p ≤ a.len)
    (hv : v.length = src.count)
    (hc : copy pl { a with mem := a.mem.take (p + src.count) ++ (a.mem.take a.len).drop p ++ a.mem.drop (p + src.count + (a.len - p)) } m p src =
      write { a with mem := a.mem.take (p + src.count) ++ (a.mem.take a.len).drop p ++ a.mem.drop (p + src.count + (a.len - p)) } p v) :
    ∃ a', place pl a m p src = .ok a' ∧ a'.len = a.len + src.count ∧ a'.mem.length = a.mem.length ∧ a'.contents = inserted a.contents p v := by
  have hl : (a.mem.take a.len).length = a.len := by simp only [List.length_take]; omega
  have hlen : (a.mem.take (p + src.count) ++ (a.mem.take a.len).drop p ++ a.mem.drop (p + src.count + (a.len - p))).length = a.mem.length := by
    simp only [List.length_append, List.length_take, List.length_drop]
    omega
  have hw : write a (p + src.count) (a.contents.drop p) =
      .ok { a with mem := a.mem.take (p + src.count) ++ (a.mem.take a.len).drop p ++ a.mem.drop (p + src.count + (a.len - p)) } := by
    rw [write, GArr.contents, if_pos (by rw [List.length_drop, hl]; omega), List.length_drop, hl]
  have h1 := moved_contents hr hp hv
  refine ⟨_, by rw [place, hw, ok_bind, hc, write, if_pos (by rw [hlen]; omega), ok_bind], rfl, ?_, ?_⟩
  · simp only [List.length_append, List.length_take, List.length_drop] at hlen ⊢
    omega
  · simp only [GArr.contents, hv]
    exact h1

theorem copy_own {pl : Platform} {a : GArr} {p i n : Nat} (h : ¬ (pl.strict = true ∧ i < p + n ∧ p < i + n)) (hl : i + n ≤ a.mem.length) :
    copy pl a false p (.own i n) = write a p ((a.mem.drop i).take n) := by
  rw [copy, if_neg (by simp), if_neg h, if_pos hl]

theorem place_own {pl : Platform} {a : GArr} {p i n : Nat} (hr : a.len + n ≤ a.mem.length) (hp : p ≤ a.len) (hi : i + n ≤ a.len)
    (h : ¬ (pl.strict = true ∧ i < p + n ∧ p < i + n)) :
    ∃ a', place pl a false p (.own i n) = .ok a' ∧ a'.len = a.len + n ∧ a'.mem.length = a.mem.length ∧
      a'.contents = inserted a.contents p (part (a.contents.take (p + n) ++ a.contents.drop p) i n) := by
  have hl : a.contents.length = a.len := by simp only [GArr.contents, List.length_take]; omega
  refine place_gen (src := .own i n) hr hp ?_ ?_
  · simp only [part, List.length_append, List.length_take, List.length_drop, hl, Src.count]
    omega
  · rw [copy_own h (by simp only [Src.count, List.length_append, List.length_take, List.length_drop]; omega)]
    exact congrArg (write _ p) (moved_part hr hp hi)

theorem place_overlap {pl : Platform} {a : GArr} {p i n : Nat} (hr : a.len + n ≤ a.mem.length) (hp : p ≤ a.len)
    (h : pl.strict = true ∧ i < p + n ∧ p < i + n) : place pl a false p (.own i n) = .error .badArg := by
  have hl : a.contents.length = a.len := by simp only [GArr.contents, List.length_take]; omega
  rw [place, write, if_pos (by simp only [List.length_drop, hl, Src.count]; omega), ok_bind]
  simp only [copy]
  rw [if_neg (by simp), if_pos h]
  rfl

theorem place_moved {pl : Platform} {a : GArr} {p i n : Nat} (hr : a.len + n ≤ a.mem.length) (hp : p ≤ a.len) :
    place pl a true p (.own i n) = .error .useAfterFree := by
  have hl : a.contents.length = a.len := by simp only [GArr.contents, List.length_take]; omega
  rw [place, write, if_pos (by simp only [List.length_drop, hl, Src.count]; omega), ok_bind]
  simp only [copy]
  rfl

theorem place_other {pl : Platform} {a : GArr} {m : Bool} {p : Nat} {v : List Val} (hr : a.len + v.length ≤ a.mem.length) (hp : p ≤ a.len) :
    ∃ a', place pl a m p (.other v) = .ok a' ∧ a'.len = a.len + v.length ∧ a'.mem.length = a.mem.length ∧
      a'.contents = inserted a.contents p (v.map some) :=
  place_gen (src := .other v) hr hp (by simp [Src.count]) rfl

end Verif.IntArray.Self
