import Verif.Props.RingRoom

/-!
# Dropping several elements of a ring at once and one at a time: C170
-/

namespace Verif.Ring
open Verif.C Spec

theorem buf_allowed_append (xs ys : List Op) : ∀ b : Buf, b.Allowed (xs ++ ys) ↔ b.Allowed xs ∧ (b.final xs).Allowed ys := by
  induction xs with
  | nil => intro b; simp [Buf.Allowed, Buf.final]
  | cons x t ih => intro b; simp [Buf.Allowed, Buf.final, ih, and_assoc]

/-- The same, except for the order in which elements have been released -/
structure Released (b b' : Buf) : Prop where
  rest : b' = { b with freed := b'.freed }
  freed : b'.freed.Perm b.freed

theorem released_next {b b' : Buf} (h : Released b b') (op : Op) : (b'.next op).1 = (b.next op).1 ∧ Released (b.next op).2 (b'.next op).2 := by
  obtain ⟨h1, h2⟩ := h
  obtain ⟨items, max, free, freed, refs, cap, short⟩ := b
  obtain ⟨items', max', free', freed', refs', cap', short'⟩ := b'
  simp only [Buf.mk.injEq, and_true, true_and] at h1 h2
  obtain ⟨rfl, rfl, rfl, rfl, rfl, rfl⟩ := h1
  cases op
  case reserve n =>
    by_cases c1 : n ≤ cap'
    · simp only [Buf.next, Buf.grow, c1, if_true]; exact ⟨trivial, rfl, h2⟩
    · by_cases c2 : 0 ≤ max' ∧ max' ≤ cap'
      · simp only [Buf.next, Buf.grow, c1, c2, and_self, if_true, if_false]; exact ⟨trivial, rfl, h2⟩
      · simp only [Buf.next, Buf.grow, c1, c2, if_false]; exact ⟨trivial, rfl, h2⟩
  case put p =>
    by_cases c1 : (items'.length : Int) + 1 ≤ cap'
    · simp only [Buf.next, Buf.grow, c1, if_true]; exact ⟨trivial, rfl, h2⟩
    · by_cases c2 : 0 ≤ max' ∧ max' ≤ cap'
      · simp only [Buf.next, Buf.grow, c1, c2, and_self, if_true, if_false]; exact ⟨trivial, rfl, h2⟩
      · simp only [Buf.next, Buf.grow, c1, c2, if_false]; exact ⟨trivial, rfl, h2⟩
  case putFront p =>
    by_cases c1 : (items'.length : Int) + 1 ≤ cap'
    · simp only [Buf.next, Buf.grow, c1, if_true]; exact ⟨trivial, rfl, h2⟩
    · by_cases c2 : 0 ≤ max' ∧ max' ≤ cap'
      · simp only [Buf.next, Buf.grow, c1, c2, and_self, if_true, if_false]; exact ⟨trivial, rfl, h2⟩
      · simp only [Buf.next, Buf.grow, c1, c2, if_false]; exact ⟨trivial, rfl, h2⟩
  all_goals simp only [Buf.next, Buf.dropFront, Buf.dropBack, Buf.release]
  all_goals (repeat' split) <;>
    first
      | exact ⟨rfl, rfl, h2⟩
      | exact ⟨trivial, rfl, h2⟩
      | exact ⟨rfl, rfl, h2.append_right _⟩
      | exact ⟨trivial, rfl, h2.append_right _⟩
      | grind

theorem released_pre {b b' : Buf} (h : Released b b') (op : Op) : b'.Pre op ↔ b.Pre op := by
  obtain ⟨h1, -⟩ := h
  rw [h1]
  cases op <;> exact Iff.rfl

theorem released_run (ops : List Op) : ∀ {b b' : Buf}, Released b b' →
    (b'.Allowed ops ↔ b.Allowed ops) ∧ b'.outs ops = b.outs ops ∧ (b'.final ops).freed.Perm (b.final ops).freed := by
  induction ops with
  | nil => intro b b' h; exact ⟨Iff.rfl, rfl, h.freed⟩
  | cons op t ih =>
    intro b b' h
    obtain ⟨n1, n2⟩ := released_next h op
    obtain ⟨i1, i2, i3⟩ := ih n2
    exact ⟨by simp only [Buf.Allowed, released_pre h op, i1], by simp only [Buf.outs, n1, i2], i3⟩

theorem dropFront_add (b : Buf) (m n : Nat) : (b.dropFront m).dropFront n = b.dropFront (m + n) := by
  obtain ⟨items, max, free, freed, refs, cap, short⟩ := b
  simp only [Buf.dropFront, Buf.release, List.drop_drop, List.take_add]
  cases free <;> simp [List.append_assoc]

theorem dropBack_items (b : Buf) (n : Nat) : (b.dropBack n).items = b.items.take (b.items.length - n) := by
  unfold Buf.dropBack
  split
  · rename_i h
    simp [Buf.dropFront, Buf.release, List.drop_eq_nil_of_le h, Nat.sub_eq_zero_of_le h]
  · rfl

/-- What dropping the newest elements does, except for the order -/
theorem dropBack_released (b : Buf) (n : Nat) : Released (b.release (b.items.drop (b.items.length - n)).reverse (b.items.take (b.items.length - n))) (b.dropBack n) := by
  unfold Buf.dropBack
  split
  · rename_i h
    have e : b.items.length - n = 0 := Nat.sub_eq_zero_of_le h
    refine ⟨by simp [Buf.dropFront, Buf.release, e, List.drop_eq_nil_of_le h], ?_⟩
    simp only [Buf.dropFront, Buf.release, e, List.drop_zero, List.take_of_length_le h]
    cases b.free with
    | none => exact .rfl
    | some f => exact ((List.reverse_perm _).symm.map _).append_left _
  · exact ⟨rfl, .rfl⟩

theorem released_trans {a b c : Buf} (h : Released a b) (h' : Released b c) : Released a c :=
  ⟨by rw [h'.rest, h.rest], h'.freed.trans h.freed⟩

theorem released_symm {a b : Buf} (h : Released a b) : Released b a :=
  ⟨by rw [h.rest], h.freed.symm⟩

/-- The order being taken from the other end -/
def backward (b : Buf) (n : Nat) : Buf := b.release (b.items.drop (b.items.length - n)).reverse (b.items.take (b.items.length - n))

theorem backward_add (b : Buf) (m n : Nat) : backward (backward b m) n = backward b (m + n) := by
  obtain ⟨items, max, free, freed, refs, cap, short⟩ := b
  have e1 : items.length - m - n = items.length - (m + n) := by omega
  have e2 : min (items.length - (m + n)) (items.length - m) = items.length - (m + n) := by omega
  have e3 : items.drop (items.length - (m + n)) = (items.take (items.length - m)).drop (items.length - (m + n)) ++ items.drop (items.length - m) := by
    conv => lhs; rw [← List.take_append_drop (items.length - m) items]
    rw [List.drop_append_of_le_length (by simp; omega)]
    simp [List.length_take, List.length_append, List.length_drop]
  simp only [backward, Buf.release, List.length_take, List.take_take]
  have e4 : min (items.length - m) items.length - n = items.length - (m + n) := by omega
  rw [e4, e2]
  congr 1
  rw [e3]
  cases free <;> simp [List.append_assoc]

theorem released_backward {a b : Buf} (h : Released a b) (n : Nat) : Released (backward a n) (backward b n) := by
  obtain ⟨h1, h2⟩ := h
  obtain ⟨items, max, free, freed, refs, cap, short⟩ := a
  obtain ⟨items', max', free', freed', refs', cap', short'⟩ := b
  simp only [Buf.mk.injEq, and_true, true_and] at h1 h2
  obtain ⟨rfl, rfl, rfl, rfl, rfl, rfl⟩ := h1
  exact ⟨rfl, h2.append_right _⟩

theorem dropBack_add (b : Buf) (m n : Nat) : Released ((b.dropBack m).dropBack n) (b.dropBack (m + n)) :=
  released_trans (released_symm (released_trans (by
    have := released_backward (dropBack_released b m) n
    rw [show backward (b.release _ _) n = _ from backward_add b m n] at this
    exact this) (dropBack_released (b.dropBack m) n))) (dropBack_released b (m + n))

theorem dropBack_add_eq (b : Buf) (m n : Nat) (h : m + n < b.items.length) : (b.dropBack m).dropBack n = b.dropBack (m + n) := by
  have e1 : ∀ (c : Buf) (k : Nat), k < c.items.length → c.dropBack k = backward c k := by
    intro c k hk
    unfold Buf.dropBack backward
    rw [if_neg (by omega)]
  rw [e1 b m (by omega), e1 (backward b m) n (by simp [backward, Buf.release]; omega), e1 b (m + n) h, backward_add]

theorem drop_outs (b : Buf) (m n : Nat) (ops : List Op) : b.outs (.drop (m + n) :: ops) = .int ((min b.items.length m : Nat) + (min (b.items.length - m) n : Nat)) :: (b.dropFront (m + n)).outs ops ∧
    b.outs (.drop m :: .drop n :: ops) = .int (min b.items.length m : Nat) :: .int (min (b.items.length - m) n : Nat) :: (b.dropFront (m + n)).outs ops := by
  have e : ((m : Int) + n).toNat = m + n := by omega
  constructor
  · simp only [Buf.outs, Buf.next, e]
    congr 2
    omega
  · simp only [Buf.outs, Buf.next, Int.toNat_natCast, dropFront_add]
    simp [Buf.dropFront, Buf.release]

theorem dropLast_outs (b : Buf) (m n : Nat) (ops : List Op) : b.outs (.dropLast (m + n) :: ops) = .int ((min b.items.length m : Nat) + (min (b.items.length - m) n : Nat)) :: (b.dropBack (m + n)).outs ops ∧
    b.outs (.dropLast m :: .dropLast n :: ops) = .int (min b.items.length m : Nat) :: .int (min (b.items.length - m) n : Nat) :: ((b.dropBack m).dropBack n).outs ops := by
  have e : ((m : Int) + n).toNat = m + n := by omega
  constructor
  · simp only [Buf.outs, Buf.next, e]
    congr 2
    omega
  · simp only [Buf.outs, Buf.next, Int.toNat_natCast]
    rw [dropBack_items, List.length_take, Nat.min_eq_left (Nat.sub_le _ _)]

theorem dropFront_refs (b : Buf) (n : Nat) : (b.dropFront n).refs = b.refs := rfl

theorem dropBack_refs (b : Buf) (n : Nat) : (b.dropBack n).refs = b.refs := by
  unfold Buf.dropBack
  split <;> rfl

/-- **C170** Dropping `m + n` of the oldest elements of a ring is the same as dropping `m` of them and then `n` more: the returned numbers add up, all the later calls return the
same, and the same elements are released in the same order. That's for the histories of C17. -/
theorem C170_drop_partial (reserved max : Int) (free : Option Nat) (h0 : 0 ≤ reserved) (h1 : reserved ≤ 2 ^ 30) (ops ops' : List Op) (m n : Nat)
    (ha : (Buf.new reserved max free).Allowed (ops ++ .drop (m + n) :: ops')) :
    ∃ r os os' i j r1 r2, newFull reserved max free = .ok r ∧ os.length = ops.length ∧
      run r (ops ++ .drop (m + n) :: ops') = .ok (os ++ .int (i + j) :: os', r1) ∧
      run r (ops ++ .drop m :: .drop n :: ops') = .ok (os ++ .int i :: .int j :: os', r2) ∧ r1.freed = r2.freed := by
  have e : ((m : Int) + n).toNat = m + n := by omega
  obtain ⟨a1, a2, a3⟩ := (buf_allowed_append _ _ _).1 ha
  simp only [Buf.next, e] at a3
  obtain ⟨r, r1, e1, e2, e3⟩ := C17_exact_partial reserved max free h0 h1 _ ha
  obtain ⟨r', r2, f1, f2, f3⟩ := C17_exact_partial reserved max free h0 h1 (ops ++ .drop m :: .drop n :: ops')
    ((buf_allowed_append _ _ _).2 ⟨a1, ⟨a2.1, trivial⟩, ⟨a2.1, trivial⟩, by simpa only [Buf.next, Int.toNat_natCast, dropFront_add] using a3⟩)
  rw [e1] at f1
  cases f1
  rw [(outs_append _ _ _).1] at e2 f2
  rw [(outs_append _ _ _).2] at e3 f3
  rw [(drop_outs _ m n ops').1] at e2
  rw [(drop_outs _ m n ops').2] at f2
  refine ⟨r, _, _, _, _, r1, r2, e1, outs_length _ _, e2, f2, ?_⟩
  rw [e3, f3]
  simp only [Buf.final, Buf.next, e, Int.toNat_natCast, dropFront_add]

/-- **C170** ... and that's the same with the newest ones. Then the same elements are released by the same functions, in the same order unless that leaves nothing in the ring. -/
theorem C170_drop_last_partial (reserved max : Int) (free : Option Nat) (h0 : 0 ≤ reserved) (h1 : reserved ≤ 2 ^ 30) (ops ops' : List Op) (m n : Nat)
    (ha : (Buf.new reserved max free).Allowed (ops ++ .dropLast (m + n) :: ops')) :
    ∃ r os os' i j r1 r2, newFull reserved max free = .ok r ∧ os.length = ops.length ∧
      run r (ops ++ .dropLast (m + n) :: ops') = .ok (os ++ .int (i + j) :: os', r1) ∧
      run r (ops ++ .dropLast m :: .dropLast n :: ops') = .ok (os ++ .int i :: .int j :: os', r2) ∧ r1.freed.Perm r2.freed ∧
      (∀ k r3, run r (ops ++ [.size]) = .ok (os ++ [.int k], r3) → m + n < k → r1.freed = r2.freed) := by
  have e : ((m : Int) + n).toNat = m + n := by omega
  obtain ⟨a1, a2, a3⟩ := (buf_allowed_append _ _ _).1 ha
  simp only [Buf.next, e] at a3
  obtain ⟨q1, q2, q3⟩ := released_run ops' (dropBack_add ((Buf.new reserved max free).final ops) m n)
  obtain ⟨r, r1, e1, e2, e3⟩ := C17_exact_partial reserved max free h0 h1 _ ha
  obtain ⟨r', r2, f1, f2, f3⟩ := C17_exact_partial reserved max free h0 h1 (ops ++ .dropLast m :: .dropLast n :: ops')
    ((buf_allowed_append _ _ _).2 ⟨a1, ⟨a2.1, trivial⟩, ⟨by simpa only [Buf.next, dropBack_refs] using a2.1, trivial⟩, by
      simpa only [Buf.next, Int.toNat_natCast] using q1.1 a3⟩)
  obtain ⟨r'', r4, g1, g2, -⟩ := C17_exact_partial reserved max free h0 h1 (ops ++ [.size]) ((buf_allowed_append _ _ _).2 ⟨a1, ⟨a2.1, trivial⟩, trivial⟩)
  rw [e1] at f1 g1
  cases f1
  cases g1
  rw [(outs_append _ _ _).1] at e2 f2 g2
  rw [(outs_append _ _ _).2] at e3 f3
  rw [(dropLast_outs _ m n ops').1, q2] at e2
  rw [(dropLast_outs _ m n ops').2] at f2
  refine ⟨r, _, _, _, _, r1, r2, e1, outs_length _ _, e2, f2, ?_, fun k r3 hk hlt => ?_⟩
  · rw [e3, f3]
    simpa only [Buf.final, Buf.next, e, Int.toNat_natCast] using q3
  · rw [g2] at hk
    simp only [Buf.outs, Buf.next, Except.ok.injEq, Prod.mk.injEq, List.append_cancel_left_eq, List.cons.injEq, Out.int.injEq, and_true] at hk
    rw [e3, f3]
    simp only [Buf.final, Buf.next, e, Int.toNat_natCast]
    rw [dropBack_add_eq _ m n (by omega)]

/-- **C170** isn't true of the order if everything is dropped: the newest one is released first if they are dropped one at a time, and the oldest one if all of them are dropped. -/
theorem C170_refuted :
    (newFull 2 (-1) (some 7) >>= fun r => run r [.put 1, .put 2, .dropLast 2]).map (fun x => x.2.freed) = .ok [(7, 1), (7, 2)] ∧
    (newFull 2 (-1) (some 7) >>= fun r => run r [.put 1, .put 2, .dropLast 1, .dropLast 1]).map (fun x => x.2.freed) = .ok [(7, 2), (7, 1)] :=
  ⟨by decide +kernel, by decide +kernel⟩

/-- **C170** Clearing a ring is the same as dropping as many elements as it contains, or more. -/
theorem C170_clear_partial (reserved max : Int) (free : Option Nat) (h0 : 0 ≤ reserved) (h1 : reserved ≤ 2 ^ 30) (ops ops' : List Op) (n : Nat)
    (ha : (Buf.new reserved max free).Allowed (ops ++ .clear :: ops')) :
    ∃ r os os' k r1 r2 r3, newFull reserved max free = .ok r ∧ os.length = ops.length ∧ run r (ops ++ [.size]) = .ok (os ++ [.int k], r1) ∧
      run r (ops ++ .clear :: ops') = .ok (os ++ .unit :: os', r2) ∧
      (k ≤ n → run r (ops ++ .drop n :: ops') = .ok (os ++ .int k :: os', r3) ∧ r2.freed = r3.freed) := by
  obtain ⟨a1, a2, a3⟩ := (buf_allowed_append _ _ _).1 ha
  obtain ⟨r, r1, e1, e2, e3⟩ := C17_exact_partial reserved max free h0 h1 _ ha
  obtain ⟨r'', r4, g1, g2, -⟩ := C17_exact_partial reserved max free h0 h1 (ops ++ [.size]) ((buf_allowed_append _ _ _).2 ⟨a1, ⟨a2.1, trivial⟩, trivial⟩)
  rw [e1] at g1
  cases g1
  rw [(outs_append _ _ _).1] at e2 g2
  rw [(outs_append _ _ _).2] at e3
  generalize hb : (Buf.new reserved max free).final ops = b at *
  by_cases hk : b.items.length ≤ n
  · have ed : b.dropFront n = b.dropFront b.items.length := by
      simp only [Buf.dropFront, List.take_of_length_le hk, List.take_length, List.drop_eq_nil_of_le hk, List.drop_length]
    obtain ⟨r', r2, f1, f2, f3⟩ := C17_exact_partial reserved max free h0 h1 (ops ++ .drop n :: ops')
      ((buf_allowed_append _ _ _).2 ⟨a1, by rw [hb]; exact ⟨⟨a2.1, trivial⟩, by simpa only [Buf.next, Int.toNat_natCast, ed] using a3⟩⟩)
    rw [e1] at f1
    cases f1
    rw [(outs_append _ _ _).1, hb] at f2
    rw [(outs_append _ _ _).2, hb] at f3
    simp only [Buf.outs, Buf.final, Buf.next, Int.toNat_natCast, ed, Nat.min_eq_left hk] at e2 e3 f2 f3 g2
    exact ⟨r, _, _, _, r4, r1, r2, e1, outs_length _ _, g2, e2, fun _ => ⟨f2, by rw [e3, f3]⟩⟩
  · simp only [Buf.outs, Buf.next] at e2 g2
    exact ⟨r, _, _, _, r4, r1, r1, e1, outs_length _ _, g2, e2, fun h => absurd h (by omega)⟩

/-- The conditions are met by a ring which wraps around, and something is left in it. -/
example : (Buf.new 3 5 (some 7)).Allowed ([.put 1, .put 2, .put 3, .get, .put 4, .put 5] ++ .drop ((1 : Nat) + (2 : Nat)) :: [.get, .unref]) ∧
    (Buf.new 3 5 (some 7)).Allowed ([.put 1, .put 2, .put 3, .get, .put 4, .put 5] ++ .dropLast ((1 : Nat) + (2 : Nat)) :: [.get, .unref]) ∧
    (Buf.new 3 5 (some 7)).Allowed ([.put 1, .put 2, .put 3, .get, .put 4, .put 5] ++ .clear :: [.put 6, .get, .unref]) ∧
    history 3 5 (some 7) [.put 1, .put 2, .put 3, .get, .put 4, .put 5, .dropLast 1, .dropLast 2, .get, .unref] =
      .ok [.bool true, .bool true, .bool true, .ptr 1, .bool true, .bool true, .int 1, .int 2, .ptr 2, .unit] :=
  ⟨by decide +kernel, by decide +kernel, by decide +kernel, by decide +kernel⟩

end Verif.Ring
