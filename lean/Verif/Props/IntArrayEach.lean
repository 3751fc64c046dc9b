import Verif.Props.IntArray

/-!
# Several ints at once and one at a time: C168
-/

namespace Verif.IntArray
open Verif.C

theorem append_each (vals : List Val) : ∀ (l : List Val), l.length + vals.length < 2 ^ 32 →
    vals.foldlM append (I l) = .ok (I (l ++ vals)) := by
  induction vals with
  | nil => intro l _; simp [pure, Except.pure]
  | cons x vals ih =>
    intro l h
    rw [List.length_cons] at h
    rw [List.foldlM_cons, (C45_add l [] x (by simp; omega) (by omega)).1, ok_bind, ih (l ++ [x]) (by simp; omega)]
    simp

theorem insert_each (pos : Nat) (vals : List Val) : ∀ (l : List Val), pos ≤ l.length → l.length + vals.length < 2 ^ 32 →
    vals.foldlM (fun a x => insert a pos x) (I l) = .ok (I (l.take pos ++ vals.reverse ++ l.drop pos)) := by
  induction vals with
  | nil => intro l _ _; simp [pure, Except.pure]
  | cons x vals ih =>
    intro l hp h
    rw [List.length_cons] at h
    have hlen : (l.take pos).length = pos := by simp; omega
    rw [List.foldlM_cons, ((C45_add l [] x (by simp; omega) (by omega)).2.2.2.2 pos hp).1, ok_bind,
      ih (l.take pos ++ x :: l.drop pos) (by simp; omega) (by simp; omega)]
    rw [List.take_append_of_le_length (by omega), List.take_take, Nat.min_self, List.drop_append_of_le_length (by omega), List.drop_take_self]
    simp

theorem remove_each (pos : Nat) (count : Nat) : ∀ (l : List Val), l.length < 2 ^ 32 → pos + count ≤ l.length →
    (List.replicate count pos).foldlM removeIndex (I l) = .ok (I (l.take pos ++ l.drop (pos + count))) := by
  induction count with
  | zero => intro l _ _; simp [pure, Except.pure]
  | succ n ih =>
    intro l h hp
    rw [List.replicate_succ, List.foldlM_cons, (C45_remove l h).2.1 pos, ok_bind,
      ih (l.eraseIdx pos) (by rw [List.length_eraseIdx]; split <;> omega) (by rw [List.length_eraseIdx, if_pos (by omega)]; omega)]
    have hlen : (l.take pos).length = pos := by simp; omega
    rw [List.eraseIdx_eq_take_drop_succ, List.take_append_of_le_length (by omega), List.take_take, Nat.min_self,
      List.drop_append, hlen, List.drop_eq_nil_of_le (by omega), List.drop_drop, List.nil_append]
    rw [show pos + 1 + (pos + n - pos) = pos + (n + 1) by omega]

/-- **C168** Appending, prepending or inserting several ints is the same as doing that with each of them (prepending, and inserting at the same position, from the last
one to the first); inserting at the beginning is prepending, and inserting at the end is appending. -/
theorem C168_adding (l vals : List Val) (x : Val) (hlen : l.length + vals.length < 2 ^ 32) (hx : l.length + 1 < 2 ^ 32) :
    appendVals (I l) vals = vals.foldlM append (I l) ∧
    prependVals (I l) vals = vals.reverse.foldlM prepend (I l) ∧
    (∀ pos ≤ l.length, insertVals (I l) pos vals = vals.reverse.foldlM (fun a x => insert a pos x) (I l)) ∧
    insertVals (I l) 0 vals = prependVals (I l) vals ∧ insertVals (I l) l.length vals = appendVals (I l) vals ∧
    insert (I l) 0 x = prepend (I l) x ∧ insert (I l) l.length x = append (I l) x := by
  obtain ⟨h1, h2, h3, h4, h5⟩ := C45_add l vals x hlen hx
  have pre : ∀ (vs m : List Val), m.length + vs.length < 2 ^ 32 → vs.foldlM prepend (I m) = .ok (I (vs.reverse ++ m)) := by
    intro vs
    induction vs with
    | nil => intro m _; simp [pure, Except.pure]
    | cons y vs ih =>
      intro m h
      rw [List.length_cons] at h
      rw [List.foldlM_cons, (C45_add m [] y (by simp; omega) (by omega)).2.2.1, ok_bind, ih (y :: m) (by simp; omega)]
      simp
  refine ⟨by rw [h2, append_each vals l hlen], by rw [h4, pre _ l (by simpa using hlen), List.reverse_reverse], fun pos hp => ?_, ?_, ?_, ?_, ?_⟩
  · rw [(h5 pos hp).2, insert_each pos vals.reverse l hp (by simpa using hlen), List.reverse_reverse]
  · rw [(h5 0 (by omega)).2, h4]; simp
  · rw [(h5 _ (Nat.le_refl _)).2, h2]; simp
  · rw [(h5 0 (by omega)).1, h3]; simp
  · rw [(h5 _ (Nat.le_refl _)).1, h1]; simp

/-- **C168** Removing a range is the same as removing the element at its position as many times. -/
theorem C168_removing (l : List Val) (h : l.length < 2 ^ 32) (pos count : Nat) (hp : pos + count ≤ l.length) :
    removeRange (I l) pos count = (List.replicate count pos).foldlM removeIndex (I l) := by
  rw [remove_each pos count l h hp, C47_range_partial l h pos count (by omega)]

/-- **C168** Making an array of several ints is the same as appending each of them to an empty one. (`limit` is how many bytes can be allocated.) -/
theorem C168_new (limit : Nat) (hl : limit < 2 ^ 32) (vals : List Val) (hv : vals.length * 4 ≤ limit) (h4 : 4 ≤ limit) :
    newFromVals limit vals = vals.foldlM append new := by
  obtain ⟨h1, h2, -⟩ := C45_new limit hl vals 0 hv h4
  rw [h2, h1, append_each vals [] (by simp; omega)]
  simp

/-- The conditions are met by an array of three ints to which two more are added, and from which two are removed. -/
example : ([1, 2, 3] : List Val).length + ([7, 8] : List Val).length < 2 ^ 32 ∧ insertVals (I [1, 2, 3]) 1 [7, 8] = .ok (I [1, 7, 8, 2, 3]) ∧
    ([8, 7] : List Val).foldlM (fun a x => insert a 1 x) (I [1, 2, 3]) = .ok (I [1, 7, 8, 2, 3]) ∧
    removeRange (I [1, 7, 8, 2, 3]) 1 2 = .ok (I [1, 2, 3]) ∧ [1, 1].foldlM removeIndex (I [1, 7, 8, 2, 3]) = .ok (I [1, 2, 3]) :=
  ⟨by decide, by decide +kernel, by decide +kernel, by decide +kernel, by decide +kernel⟩

end Verif.IntArray
