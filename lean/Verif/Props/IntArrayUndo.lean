import Verif.Props.IntArray

/-!
# Undoing changes of an array of ints: C147
-/

namespace Verif.IntArray
open Verif.C

/-- **C147**: removing what has been added gives what has been there before, and inserting what has been removed does too. -/
theorem C147_undo (l vals : List Val) (x : Val) (hlen : l.length + vals.length < 2 ^ 32) (hx : l.length + 1 < 2 ^ 32) :
    (appendVals (I l) vals >>= fun a => setCount a l.length) = .ok (I l) ∧
    (prependVals (I l) vals >>= fun a => removeRange a 0 vals.length) = .ok (I l) ∧
    (∀ pos ≤ l.length, (insertVals (I l) pos vals >>= fun a => removeRange a pos vals.length) = .ok (I l) ∧
      (insert (I l) pos x >>= fun a => removeIndex a pos) = .ok (I l)) ∧
    (∀ pos count, pos + count ≤ l.length →
      (removeRange (I l) pos count >>= fun a => insertVals a pos ((l.drop pos).take count)) = .ok (I l)) ∧
    (∀ pos v, l[pos]? = some v → (removeIndex (I l) pos >>= fun a => insert a pos v) = .ok (I l)) := by
  obtain ⟨-, h2, -, h4, h5⟩ := C45_add l vals x hlen hx
  refine ⟨?_, ?_, fun pos hp => ⟨?_, ?_⟩, fun pos count hp => ?_, fun pos v hv => ?_⟩
  · rw [h2, ok_bind, (C45_remove (l ++ vals) (by simp; omega)).1 l.length (by simp)]
    simp
  · rw [h4, ok_bind, C47_range_partial _ (by simp; omega) 0 vals.length (by omega)]
    simp
  · rw [(h5 pos hp).2, ok_bind, C47_range_partial _ (by simp; omega) pos vals.length (by omega)]
    have e1 : (l.take pos ++ vals ++ l.drop pos).take pos = l.take pos := by
      rw [List.append_assoc, List.take_left' (by simp; omega)]
    have e2 : (l.take pos ++ vals ++ l.drop pos).drop (pos + vals.length) = l.drop pos := by
      rw [List.drop_left' (by simp; omega)]
    rw [e1, e2, List.take_append_drop]
  · rw [(h5 pos hp).1, ok_bind, (C45_remove _ (by simp; omega)).2.1 pos, List.eraseIdx_append_of_length_le (by simp; omega)]
    have : pos - (l.take pos).length = 0 := by simp; omega
    rw [this, List.eraseIdx_cons_zero, List.take_append_drop]
  · rw [C47_range_partial l (by omega) pos count (by omega), ok_bind]
    have hL : (l.take pos ++ l.drop (pos + count)).length = l.length - count := by simp; omega
    have hV : ((l.drop pos).take count).length = count := by simp; omega
    rw [((C45_add _ ((l.drop pos).take count) 0 (by rw [hL, hV]; omega) (by rw [hL]; omega)).2.2.2.2 pos (by rw [hL]; omega)).2]
    rw [List.take_left' (by simp; omega), List.drop_left' (by simp; omega)]
    have : l.drop (pos + count) = (l.drop pos).drop count := by rw [List.drop_drop]
    rw [this, List.append_assoc, List.take_append_drop, List.take_append_drop]
  · obtain ⟨hlt, rfl⟩ := List.getElem?_eq_some_iff.1 hv
    rw [(C45_remove l (by omega)).2.1 pos, ok_bind]
    have hL : (l.eraseIdx pos).length = l.length - 1 := List.length_eraseIdx_of_lt hlt
    rw [((C45_add (l.eraseIdx pos) [] l[pos] (by rw [hL]; simp; omega) (by rw [hL]; omega)).2.2.2.2 pos (by rw [hL]; omega)).1]
    have e : l.eraseIdx pos = l.take pos ++ l.drop (pos + 1) := List.eraseIdx_eq_take_drop_succ ..
    rw [e, List.take_left' (by simp; omega), List.drop_left' (by simp; omega), List.getElem_cons_drop, List.take_append_drop]

example : (insertVals (I [1, 2, 3]) 2 [7, 7] >>= fun a => removeRange a 2 2) = .ok (I [1, 2, 3]) :=
  ((C147_undo [1, 2, 3] [7, 7] 0 (by decide) (by decide)).2.2.1 2 (by decide)).1

example : insertVals (I [1, 2, 3]) 2 [7, 7] = .ok (I [1, 2, 7, 7, 3]) ∧ removeRange (I [1, 2, 7, 7, 3]) 0 2 = .ok (I [7, 7, 3]) := by decide +kernel

end Verif.IntArray
