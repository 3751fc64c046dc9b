import Verif.Props.Ints

/-!
# Parts of parts of blocks of ints: C148
-/

namespace Verif.Ints
open Verif.C

/-- **C148** if the sums are `guint`s: a part of a part of a block of ints is the same as the corresponding part of the block itself: has the same
ints and the same number of them, and neither exists if there would be no ints in it. The first part has still got its own ints. -/
theorem C148_parts_partial {m : State} {i : Nat} {l : List Val} (h : getData m i = .ok l) (hl : l.length < 2 ^ 32)
    (off1 count1 off2 count2 : Nat) (h1 : off1 + count1 < 2 ^ 32) (h2 : off2 + count2 < 2 ^ 32) (h3 : off1 + off2 < 2 ^ 32)
    {m1 : State} {j : Nat} (hj : newFromInts m i off1 count1 = .ok (m1, some j)) :
    ∃ m2 r m3 q, newFromInts m1 j off2 count2 = .ok (m2, r) ∧ newFromInts m i (off1 + off2) (min count2 (count1 - off2)) = .ok (m3, q) ∧
      (r = none ↔ q = none) ∧ getData m2 j = getData m1 j ∧
      ∀ k n, r = some k → q = some n → getData m2 k = getData m3 n ∧ getCount m2 k = getCount m3 n ∧ (∃ v vs, getData m2 k = .ok (v :: vs)) := by
  obtain ⟨m1', r1, e1, -, e3, -⟩ := C40_subrange_partial h hl off1 count1 h1
  rw [hj] at e1
  injection e1 with e1
  injection e1 with e1 e1'
  subst e1 e1'
  have hd := (e3 j rfl).1
  obtain ⟨m2, r, f1, f2, f3, f4⟩ := C40_subrange_partial hd (by simp; omega) off2 count2 h2
  obtain ⟨m3, q, g1, g2, g3, -⟩ := C40_subrange_partial h hl (off1 + off2) (min count2 (count1 - off2)) (by omega)
  have hlist : (((l.drop off1).take count1).drop off2).take count2 = (l.drop (off1 + off2)).take (min count2 (count1 - off2)) := by
    rw [List.drop_take, List.drop_drop, List.take_take]
  refine ⟨m2, r, m3, q, f1, g1, by rw [f2, g2, hlist], by rw [f4, hd], fun k n hk hn => ?_⟩
  obtain ⟨a1, a2⟩ := f3 k hk
  obtain ⟨b1, b2⟩ := g3 n hn
  refine ⟨by rw [a1, b1, hlist], by rw [a2, b2, hlist], ?_⟩
  cases hx : (((l.drop off1).take count1).drop off2).take count2 with
  | nil => rw [f2.2 hx] at hk; cases hk
  | cons v vs => exact ⟨v, vs, by rw [a1, hx]⟩

/-- Five ints, the middle three of them, and the last two of these -/
def exampleParts : State := ⟨[some [1, 2, 3, 4, 5]], [some ⟨0, 0, 5, 1, .gfree 0⟩]⟩

example : ∃ m1, newFromInts exampleParts 0 1 3 = .ok (m1, some 1) ∧ getData exampleParts 0 = .ok [1, 2, 3, 4, 5] ∧
    ∃ m2, newFromInts m1 1 1 9 = .ok (m2, some 2) ∧ getData m2 2 = .ok [3, 4] := ⟨_, rfl, rfl, _, rfl, rfl⟩

/-- C148 isn't true if the sum isn't a `guint`: the part of the part is unreadable, and the part of the block (with the same arguments) is fine. -/
theorem C148_refuted : ∃ m1, newFromInts exampleParts 0 1 3 = .ok (m1, some 1) ∧
    (∃ m2, newFromInts m1 1 1 (2 ^ 32 - 1) = .ok (m2, some 2) ∧ getData m2 2 = .error .oobRead) ∧
    ∃ m3, newFromInts exampleParts 0 (1 + 1) (min (2 ^ 32 - 1) (3 - 1)) = .ok (m3, some 1) ∧ getData m3 1 = .ok [3, 4] :=
  ⟨_, rfl, ⟨_, rfl, rfl⟩, ⟨_, rfl, rfl⟩⟩

end Verif.Ints
