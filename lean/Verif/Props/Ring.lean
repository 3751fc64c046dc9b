import Verif.Proof.RingCap

/-!
# C17-C23: the ring buffer

`Spec/Ring.lean` says what a ring buffer is: a list, with `Step` describing each call,
`Pre` what the caller must respect and `Allowed` the histories which respect that.
-/

namespace Verif.Ring
open Verif.C Spec

/-- **C17** Any history of calls is defined and returns what it returns on a plain list.
Partial: `Pre` excludes adding elements after flatten without a compact in between (see
`C20_refuted`) and rings of more than 2^29 elements; and whether a put into a full ring
fails is only determined as long as the capacity doesn't exceed the limit (see
`C18_refuted`). -/
theorem C17_ring_is_a_deque_partial (reserved max : Int) (free : Option Nat)
    (h0 : 0 ≤ reserved) (h1 : reserved ≤ 2 ^ 29) (ops : List Op)
    (ha : Allowed (Deque.new reserved max free) ops) :
    ∃ r os r' d', newFull reserved max free = .ok r ∧ run r ops = .ok (os, r') ∧
      Run (Deque.new reserved max free) ops os d' ∧ r'.freed = d'.freed := by
  obtain ⟨r, hr, hal⟩ := new_alive reserved max free h0 h1
  obtain ⟨os, r', d', h2, h3, h4⟩ := sim_run ops r _ (.inl hal) ha
  refine ⟨r, os, r', d', hr, h2, h3, ?_⟩
  rcases h4 with h4 | h4
  · exact h4.freed
  · exact h4.2.2.2

/-- **C17**, with the capacity being taken into account (`Spec/RingCap.lean`): it's known what each call returns, including those which fail because of the
limit, for all rings whose capacity doesn't exceed 2^30. Partial: nothing is added after a flatten which may have reallocated the memory, until it's
allocated again by compact or reserve. -/
theorem C17_exact_partial (reserved max : Int) (free : Option Nat) (h0 : 0 ≤ reserved) (h1 : reserved ≤ 2 ^ 30) (ops : List Op)
    (ha : (Buf.new reserved max free).Allowed ops) :
    ∃ r r', newFull reserved max free = .ok r ∧ run r ops = .ok ((Buf.new reserved max free).outs ops, r') ∧
      r'.freed = ((Buf.new reserved max free).final ops).freed := by
  obtain ⟨r, hr, hal⟩ := cap_new reserved max free h0 h1
  obtain ⟨r', h2, h3⟩ := cap_run ops r _ (.inl hal) ha
  refine ⟨r, r', hr, h2, ?_⟩
  rcases h3 with h3 | h3
  · exact h3.1.freed
  · exact h3.2.2

/-- The ring is full and flattened, which is harmless; it's flattened again, when it's not full, and reserve allocates the memory anew. Then it gets
limited to less than its capacity (which has no effect) and is compacted (now it has). -/
example : (Buf.new 2 (-1) (some 7)).Allowed [.put 1, .put 2, .get, .put 3, .flatten, .put 4, .get, .flatten, .reserve 5, .put 5, .putFront 6, .dropLast 1,
      .setMaxSize 2, .put 7, .put 8, .compact, .put 9, .setMaxSize 3, .put 10, .getLast, .put 11, .unref] ∧
    (Buf.new 2 (-1) (some 7)).outs [.put 1, .put 2, .get, .put 3, .flatten, .put 4, .get, .flatten, .reserve 5, .put 5, .putFront 6, .dropLast 1,
      .setMaxSize 2, .put 7, .put 8, .compact, .put 9, .setMaxSize 3, .put 10, .getLast, .put 11, .unref] =
      [.bool true, .bool true, .ptr 1, .bool true, .block (some [2, 3]) 2, .bool true, .ptr 2, .block (some [3, 4]) 2, .bool true, .bool true, .bool true, .int 1,
       .unit, .bool true, .bool true, .unit, .bool false, .unit, .bool true, .ptr 10, .bool true, .unit] := by decide +kernel

/-- **C17**, why adding something after flatten is excluded: a list would have accepted all these elements. -/
theorem C17_refuted : history 4 (-1) none [.put 1, .put 2, .put 3, .put 4, .get, .get, .get, .put 5, .flatten, .put 6] =
    .error .oobWrite := by decide +kernel

/-- ... and why there are limits on sizes: no ring which has room for 2^30 elements (or more) can grow, that's a signed overflow. -/
theorem C17_refuted_by_size (n m : Int) (free : Option Nat) (h0 : 2 ^ 30 ≤ n) (h1 : n < m) :
    history n (-1) free [.reserve m] = .error .signedOverflow := by
  have e1 : ¬ n < 0 := by omega
  have e2 : n ≠ 0 := by omega
  have e3 : ¬ m ≤ n := by omega
  have e4 : chk32 (n * 2) = .error .signedOverflow := by
    unfold chk32
    rw [if_neg (by unfold intMin intMax; omega)]
  simp [history, newFull, newBlock, e1, e2, e3, e4, run, exec, reserve, bind, Except.bind]

example : history (2 ^ 30) (-1) none [.reserve (2 ^ 30 + 1)] = .error .signedOverflow :=
  C17_refuted_by_size _ _ _ (by decide) (by decide)

/-- A history which meets the hypotheses: the ring wraps around, grows and shrinks. -/
example : Allowed (Deque.new 2 3 (some 7)) [.put 1, .put 2, .get, .put 3, .putFront 4, .flatten,
    .compact, .drop 1, .unref] := by
  simp only [Allowed, Pre, and_true]
  refine ⟨⟨by decide, by decide, rfl⟩, ?_⟩
  rintro o d1 (⟨_, rfl, _⟩ | ⟨_, _, hf⟩)
  rotate_left
  · exact absurd hf (by simp [Deque.full, Deque.new, norm])
  refine ⟨⟨by decide, by decide, rfl⟩, ?_⟩
  rintro o d2 (⟨_, rfl, _⟩ | ⟨_, _, hf⟩)
  rotate_left
  · exact absurd hf (by simp [Deque.full, Deque.new, norm])
  refine ⟨by decide, ?_⟩
  rintro o d3 ⟨_, rfl⟩
  refine ⟨⟨by decide, by decide, rfl⟩, ?_⟩
  rintro o d4 (⟨_, rfl, _⟩ | ⟨_, _, hf⟩)
  rotate_left
  · exact absurd hf (by simp [Deque.full, Deque.new, norm])
  refine ⟨⟨by decide, by decide, rfl⟩, ?_⟩
  rintro o d5 (⟨_, rfl, _⟩ | ⟨_, _, hf⟩)
  rotate_left
  · exact absurd hf (by simp [Deque.full, Deque.new, norm])
  refine ⟨by decide, ?_⟩
  rintro o d6 ⟨_, rfl⟩
  refine ⟨by decide, ?_⟩
  rintro o d7 ⟨_, rfl⟩
  refine ⟨by decide, ?_⟩
  rintro o d8 ⟨_, rfl⟩
  refine ⟨by decide, ?_⟩
  rintro o d9 ⟨_, rfl⟩
  trivial

example : (do
    let r ← newFull 2 3 (some 7)
    let (os, r) ← run r [.put 1, .put 2, .get, .put 3, .putFront 4, .flatten, .compact, .drop 1, .unref]
    pure (os, r.freed)) =
    (.ok ([.bool true, .bool true, .ptr 1, .bool true, .bool true, .block (some [4, 2, 3]) 3, .unit,
      .int 1, .unit], [(7, 4), (7, 2), (7, 3)]) : M _) := by decide +kernel

/-- **C18** is false: the maximum size isn't enforced if more than that was reserved. -/
theorem C18_refuted : history 10 5 none
      [.put 1, .put 1, .put 1, .put 1, .put 1, .put 1, .size, .maxSize] =
    .ok [.bool true, .bool true, .bool true, .bool true, .bool true, .bool true, .int 6, .int 5] := by
  decide +kernel

/-- It's also not enforced after having been lowered. -/
theorem C18_refuted_by_lowering : history 0 (-1) none
      [.put 1, .put 1, .put 1, .put 1, .setMaxSize 2, .put 2, .put 2, .size, .maxSize] =
    .ok [.bool true, .bool true, .bool true, .bool true, .unit, .bool true, .bool true, .int 4, .int 2] := by
  decide +kernel

/-- The bound, on the list. -/
theorem run_bounded {d : Deque} {ops : List Op} {os : List Out} {d' : Deque} (h : Run d ops os d')
    (h0 : d.tight = true → d.max < 0 ∨ d.items.length ≤ d.max) :
    d'.tight = true → d'.max < 0 ∨ d'.items.length ≤ d'.max := by
  induction h with
  | nil => exact h0
  | @cons d op o d1 ops os d2 hs _ ih =>
    apply ih
    intro ht
    cases op with
    | ref => obtain ⟨_, rfl⟩ := hs; exact h0 ht
    | unref =>
      obtain ⟨_, rfl⟩ := hs
      split at ht <;> rename_i hc
      · have := h0 ht
        rw [if_pos hc]
        simp only [Deque.dropFront, List.length_drop]
        omega
      · rw [if_neg hc]; exact h0 ht
    | setFreeFunc f => obtain ⟨_, rfl⟩ := hs; exact h0 ht
    | maxSize => obtain ⟨_, rfl⟩ := hs; exact h0 ht
    | setMaxSize n =>
      obtain ⟨_, rfl⟩ := hs
      simp only [Bool.and_eq_true, decide_eq_true_eq] at ht
      have := h0 ht.1
      split
      · simp only [Deque.dropFront, List.length_drop]; omega
      · simp only; omega
    | size => obtain ⟨_, rfl⟩ := hs; exact h0 ht
    | clear =>
      obtain ⟨_, rfl⟩ := hs
      have := h0 ht
      simp only [Deque.dropFront, List.length_drop]; omega
    | compact => obtain ⟨_, rfl⟩ := hs; exact of_decide_eq_true ht
    | reserve n => obtain ⟨b, _, rfl, _⟩ := hs; exact h0 ht
    | canPut n => obtain ⟨_, rfl⟩ := hs; exact h0 ht
    | put p =>
      rcases hs with ⟨_, rfl, hf⟩ | ⟨_, rfl, hf⟩
      · have := hf ht
        simp only [Deque.full] at this
        simp only [List.length_append, List.length_cons, List.length_nil]
        omega
      · exact h0 ht
    | putFront p =>
      rcases hs with ⟨_, rfl, hf⟩ | ⟨_, rfl, hf⟩
      · have := hf ht
        simp only [Deque.full] at this
        simp only [List.length_cons]
        omega
      · exact h0 ht
    | get =>
      obtain ⟨_, rfl⟩ := hs
      have := h0 ht
      simp only [List.length_tail]; omega
    | getLast =>
      obtain ⟨_, rfl⟩ := hs
      have := h0 ht
      simp only [List.length_dropLast]; omega
    | drop n =>
      obtain ⟨_, rfl⟩ := hs
      have := h0 ht
      simp only [Deque.dropFront, List.length_drop]; omega
    | dropLast n =>
      obtain ⟨_, rfl⟩ := hs
      simp only [Deque.dropBack] at ht ⊢
      split at ht <;> rename_i hc
      · have := h0 ht
        rw [if_pos hc]
        simp only [Deque.dropFront, List.length_drop]; omega
      · have := h0 ht
        rw [if_neg hc]
        simp only [List.length_take]; omega
    | dataAt i => obtain ⟨_, rfl⟩ := hs; exact h0 ht
    | flatten => obtain ⟨_, rfl⟩ := hs; exact h0 ht

/-- **C18**, what holds: the limit is respected as long as the reserved size doesn't exceed it
and it's never lowered (or a compact has been done after that); that's `tight`. -/
theorem C18_ring_size_bounded_partial (reserved max : Int) (free : Option Nat)
    (h0 : 0 ≤ reserved) (h1 : reserved ≤ 2 ^ 29) (ops : List Op)
    (ha : Allowed (Deque.new reserved max free) ops) :
    ∃ r os r' d', newFull reserved max free = .ok r ∧ run r ops = .ok (os, r') ∧
      Run (Deque.new reserved max free) ops os d' ∧
      (0 < d'.refs → d'.tight = true → ∃ n m, exec r' .size = .ok (.int n, r') ∧
        exec r' .maxSize = .ok (.int m, r') ∧ (m < 0 ∨ n ≤ m)) := by
  obtain ⟨r, hr, hal⟩ := new_alive reserved max free h0 h1
  obtain ⟨os, r', d', h2, h3, h4⟩ := sim_run ops r _ (.inl hal) ha
  refine ⟨r, os, r', d', hr, h2, h3, fun hrefs ht => ?_⟩
  rcases h4 with h4 | h4
  · have hb := run_bounded h3 (by intro _; simp only [Deque.new, norm]; split <;> simp <;> omega) ht
    have hrc : ¬ r'.refCount = 0 := by rw [h4.ref]; omega
    refine ⟨d'.items.length, d'.max, ?_, ?_, hb⟩
    · simp only [exec, hrc, if_false, size_spec h4.view h4.alloc0 h4.alloc1, bind, Except.bind]
    · simp only [exec, hrc, if_false, h4.maxeq]
  · omega

/-- **C19** is false: put succeeds although can_put says that it wouldn't. -/
theorem C19_refuted : history 10 1 none
      [.put 1, .canPut 1, .put 1] =
    .ok [.bool true, .bool false, .bool true] := by decide +kernel

/-- **C19**, what holds: after any history, if can_put says yes then put succeeds; the
converse holds if it's certain that the capacity doesn't exceed the limit. -/
theorem C19_can_put_predicts_put_partial (reserved max : Int) (free : Option Nat)
    (h0 : 0 ≤ reserved) (h1 : reserved ≤ 2 ^ 29) (ops : List Op)
    (ha : Allowed (Deque.new reserved max free) ops) :
    ∃ r os r' d', newFull reserved max free = .ok r ∧ run r ops = .ok (os, r') ∧
      Run (Deque.new reserved max free) ops os d' ∧
      ∀ p, Pre d' (.put p) → ∃ b b' r'', exec r' (.canPut 1) = .ok (.bool b, r') ∧
        exec r' (.put p) = .ok (.bool b', r'') ∧ (b = true → b' = true) ∧
        (d'.tight = true → b' = b) := by
  obtain ⟨r, hr, hal⟩ := new_alive reserved max free h0 h1
  obtain ⟨os, r', d', h2, h3, h4⟩ := sim_run ops r _ (.inl hal) ha
  refine ⟨r, os, r', d', hr, h2, h3, fun p hp => ?_⟩
  rcases h4 with h4 | h4
  · have hrc : ¬ r'.refCount = 0 := by rw [h4.ref]; have := hp.1; omega
    obtain ⟨b', r'', g1, g2, _⟩ := put_alive h4 p (by have := hp.2.1; omega) hp.2.2
    have hc : canPut r' 1 = .ok (decide (d'.max < 0 ∨ (d'.items.length : Int) + 1 ≤ d'.max)) := by
      have := h4.alloc1
      have := h4.view.length_le h4.alloc0
      rw [canPut, h4.maxeq]
      by_cases hm : d'.max < 0
      · simp [hm]
      · rw [if_neg hm, size_spec h4.view h4.alloc0 h4.alloc1, ok_bind,
          chk32_ok (by omega) (by omega), ok_bind]
        simp [hm]
    refine ⟨decide (d'.max < 0 ∨ (d'.items.length : Int) + 1 ≤ d'.max), b', r'', ?_, ?_, ?_, ?_⟩
    · simp only [exec, hrc, if_false, hc]; rw [ok_bind]
    · simp only [exec, hrc, if_false, g1]; rw [ok_bind]
    · intro hb
      have hb := of_decide_eq_true hb
      rcases g2 with ⟨rfl, _⟩ | ⟨_, _, hf⟩
      · rfl
      · simp only [Deque.full] at hf; omega
    · intro ht
      rcases g2 with ⟨rfl, _, hf⟩ | ⟨rfl, _, hf⟩
      · have := hf ht
        simp only [Deque.full] at this
        symm
        apply decide_eq_true
        omega
      · simp only [Deque.full] at hf
        symm
        apply decide_eq_false
        omega
  · have := hp.1; omega

/-- **C20** is false: flatten reallocates the buffer without updating its recorded size, and a
put following it writes past the end of the new one. -/
theorem C20_refuted : history 4 (-1) none
      [.put 1, .put 2, .put 3, .put 4, .get, .get, .get, .put 5, .flatten, .put 6] =
    .error .oobWrite := by decide +kernel

/-- **C20**, what holds: no allowed history makes the ring access memory out of bounds, use
slots never written or overflow (`Pre`: compact is called between flatten and adding
elements, and there are less than 2^29 of them). -/
theorem C20_ring_memory_safe_partial (reserved max : Int) (free : Option Nat)
    (h0 : 0 ≤ reserved) (h1 : reserved ≤ 2 ^ 29) (ops : List Op)
    (ha : Allowed (Deque.new reserved max free) ops) :
    ∃ r res, newFull reserved max free = .ok r ∧ run r ops = .ok res := by
  obtain ⟨r, os, r', _, hr, h2, _⟩ := C17_ring_is_a_deque_partial reserved max free h0 h1 ops ha
  exact ⟨r, (os, r'), hr, h2⟩

/-- Every history has its account. -/
theorem run_account {d : Deque} {ops : List Op} {os : List Out} {d' : Deque} (h : Run d ops os d') :
    ∃ st tk, Account d ops os d' st tk := by
  induction h with
  | nil => exact ⟨[], [], .nil⟩
  | cons hs _ ih => obtain ⟨st, tk, h⟩ := ih; exact ⟨_, _, .cons hs h⟩

theorem step_account {d : Deque} {op : Op} {o : Out} {d' : Deque} {f : Nat} (hs : Step d op o d')
    (hf : d.free = some f) (hop : ∀ g, op ≠ .setFreeFunc g) :
    d'.free = some f ∧ ∃ rel, d'.freed = d.freed ++ rel.map (f, ·) ∧
      (stored op o ++ d.items).Perm (taken d op ++ (d'.items ++ rel)) := by
  have front : ∀ n, ∃ rel, (d.dropFront n).freed = d.freed ++ rel.map (f, ·) ∧
      d.items.Perm ((d.dropFront n).items ++ rel) := by
    intro n
    refine ⟨d.items.take n, by simp [Deque.dropFront, Deque.release, hf], ?_⟩
    have := List.perm_append_comm (l₁ := d.items.take n) (l₂ := d.items.drop n)
    rw [List.take_append_drop] at this
    exact this
  have none : ∃ rel : List Ptr, d.freed = d.freed ++ rel.map (f, ·) ∧ d.items.Perm (d.items ++ rel) :=
    ⟨[], by simp, by simp⟩
  cases op with
  | ref => obtain ⟨rfl, rfl⟩ := hs; exact ⟨hf, none⟩
  | unref =>
    obtain ⟨rfl, rfl⟩ := hs
    split
    · exact ⟨hf, front _⟩
    · exact ⟨hf, none⟩
  | setFreeFunc g => exact (hop g rfl).elim
  | maxSize => obtain ⟨rfl, rfl⟩ := hs; exact ⟨hf, none⟩
  | setMaxSize n =>
    obtain ⟨rfl, rfl⟩ := hs
    by_cases hc : 0 ≤ norm n ∧ norm n ≠ d.max
    · rw [if_pos hc]; exact ⟨hf, front _⟩
    · rw [if_neg hc]; exact ⟨hf, none⟩
  | size => obtain ⟨rfl, rfl⟩ := hs; exact ⟨hf, none⟩
  | clear => obtain ⟨rfl, rfl⟩ := hs; exact ⟨hf, front _⟩
  | compact => obtain ⟨rfl, rfl⟩ := hs; exact ⟨hf, none⟩
  | reserve n => obtain ⟨b, rfl, rfl, _⟩ := hs; exact ⟨hf, none⟩
  | canPut n => obtain ⟨rfl, rfl⟩ := hs; exact ⟨hf, none⟩
  | put p =>
    rcases hs with ⟨rfl, rfl, _⟩ | ⟨rfl, rfl, _⟩
    · refine ⟨hf, [], by simp, ?_⟩
      simpa [stored, taken] using (List.perm_append_singleton p d.items).symm
    · exact ⟨hf, none⟩
  | putFront p =>
    rcases hs with ⟨rfl, rfl, _⟩ | ⟨rfl, rfl, _⟩
    · exact ⟨hf, [], by simp, by simp [stored, taken]⟩
    · exact ⟨hf, none⟩
  | get =>
    obtain ⟨rfl, rfl⟩ := hs
    refine ⟨hf, [], by simp, ?_⟩
    cases hl : d.items <;> simp [stored, taken, hl]
  | getLast =>
    obtain ⟨rfl, rfl⟩ := hs
    refine ⟨hf, [], by simp, ?_⟩
    by_cases hl : d.items = []
    · simp [stored, taken, hl]
    · simp only [stored, taken, List.nil_append, List.append_nil, List.getLast?_eq_some_getLast hl,
        Option.toList_some]
      have hc := List.dropLast_concat_getLast hl
      have := List.perm_append_comm (l₁ := d.items.dropLast) (l₂ := [d.items.getLast hl])
      rwa [hc] at this
  | drop n => obtain ⟨rfl, rfl⟩ := hs; exact ⟨hf, front _⟩
  | dropLast n =>
    obtain ⟨rfl, rfl⟩ := hs
    simp only [Deque.dropBack]
    split
    · exact ⟨hf, front _⟩
    · refine ⟨hf, (d.items.drop (d.items.length - n.toNat)).reverse, by simp [Deque.release, hf], ?_⟩
      simp only [stored, taken, List.nil_append]
      have : (d.items.take (d.items.length - n.toNat) ++ d.items.drop (d.items.length - n.toNat)).Perm
          (d.items.take (d.items.length - n.toNat) ++ (d.items.drop (d.items.length - n.toNat)).reverse) :=
        List.Perm.append_left _ (List.reverse_perm _).symm
      rwa [List.take_append_drop] at this
  | dataAt i => obtain ⟨rfl, rfl⟩ := hs; exact ⟨hf, none⟩
  | flatten => obtain ⟨rfl, rfl⟩ := hs; exact ⟨hf, none⟩

theorem account_perm {d : Deque} {ops : List Op} {os : List Out} {d' : Deque} {st tk : List Ptr}
    {f : Nat} (h : Account d ops os d' st tk) (hf : d.free = some f)
    (hop : ∀ op ∈ ops, ∀ g, op ≠ .setFreeFunc g) :
    d'.free = some f ∧ ∃ rel, d'.freed = d.freed ++ rel.map (f, ·) ∧
      (st ++ d.items).Perm (tk ++ (d'.items ++ rel)) := by
  induction h with
  | nil => exact ⟨hf, [], by simp, by simp⟩
  | @cons d op o d1 ops os d2 st tk hs _ ih =>
    obtain ⟨h1, rel1, h2, h3⟩ := step_account hs hf (hop op (by simp))
    obtain ⟨h4, rel2, h5, h6⟩ := ih h1 (fun op h => hop op (by simp [h]))
    refine ⟨h4, rel1 ++ rel2, by rw [h5, h2]; simp, ?_⟩
    calc (stored op o ++ st ++ d.items).Perm (st ++ (stored op o ++ d.items)) := by
            rw [List.append_assoc]
            have := List.perm_append_comm (l₁ := stored op o) (l₂ := st)
            have := this.append_right d.items
            simpa using this
      _ |>.Perm (st ++ (taken d op ++ (d1.items ++ rel1))) := h3.append_left _
      _ |>.Perm (taken d op ++ (st ++ d1.items) ++ rel1) := by
            have := (List.perm_append_comm (l₁ := st) (l₂ := taken d op)).append_right (d1.items ++ rel1)
            simpa using this
      _ |>.Perm (taken d op ++ (tk ++ (d2.items ++ rel2)) ++ rel1) :=
            (h6.append_left (taken d op)).append_right rel1
      _ |>.Perm (taken d op ++ tk ++ (d2.items ++ (rel1 ++ rel2))) := by
            have := (List.perm_append_comm (l₁ := rel2) (l₂ := rel1)).append_left
              (taken d op ++ tk ++ d2.items)
            simpa using this

/-- **C21** With a free function, each element stored by any allowed history is, exactly
once, still in the ring, handed over to the caller or passed to the free function; after the
last unref there is nothing in the ring. The order is part of `Step`. -/
theorem C21_ring_frees_once (reserved max : Int) (f : Nat)
    (h0 : 0 ≤ reserved) (h1 : reserved ≤ 2 ^ 29) (ops : List Op)
    (ha : Allowed (Deque.new reserved max (some f)) ops)
    (hop : ∀ op ∈ ops, ∀ g, op ≠ .setFreeFunc g) :
    ∃ r os r' d' st tk rel, newFull reserved max (some f) = .ok r ∧ run r ops = .ok (os, r') ∧
      Account (Deque.new reserved max (some f)) ops os d' st tk ∧
      r'.freed = rel.map (f, ·) ∧ st.Perm (tk ++ (d'.items ++ rel)) ∧
      (r'.refCount = 0 → d'.items = []) := by
  obtain ⟨r, hr, hal⟩ := new_alive reserved max (some f) h0 h1
  obtain ⟨os, r', d', h2, h3, h4⟩ := sim_run ops r _ (.inl hal) ha
  obtain ⟨st, tk, h5⟩ := run_account h3
  obtain ⟨_, rel, h6, h7⟩ := account_perm h5 rfl hop
  refine ⟨r, os, r', d', st, tk, rel, hr, h2, h5, ?_, by simpa [Deque.new] using h7, ?_⟩
  · have : r'.freed = d'.freed := by
      rcases h4 with h4 | h4
      · exact h4.freed
      · exact h4.2.2.2
    rw [this, h6]; simp [Deque.new]
  · intro hrc
    rcases h4 with h4 | h4
    · have := h4.pos; rw [← h4.ref] at this; omega
    · exact h4.2.2.1

/-- **C21** Without one, nothing is freed. -/
theorem C21_ring_frees_nothing (reserved max : Int)
    (h0 : 0 ≤ reserved) (h1 : reserved ≤ 2 ^ 29) (ops : List Op)
    (ha : Allowed (Deque.new reserved max none) ops)
    (hop : ∀ op ∈ ops, ∀ g, op ≠ .setFreeFunc g) :
    ∃ r os r', newFull reserved max none = .ok r ∧ run r ops = .ok (os, r') ∧ r'.freed = [] := by
  obtain ⟨r, os, r', d', hr, h2, h3, h4⟩ := C17_ring_is_a_deque_partial reserved max none h0 h1 ops ha
  refine ⟨r, os, r', hr, h2, ?_⟩
  rw [h4]
  have key : ∀ {d : Deque} {ops : List Op} {os : List Out} {d' : Deque}, Run d ops os d' →
      (∀ op ∈ ops, ∀ g, op ≠ .setFreeFunc g) → d.free = none → d.freed = [] → d'.freed = [] := by
    intro d ops os d' h
    induction h with
    | nil => intro _ _ h; exact h
    | @cons d op o d1 ops os d2 hs _ ih =>
      intro hop hf hz
      have : d1.free = none ∧ d1.freed = [] := by
        cases op with
        | setFreeFunc g => exact (hop _ (by simp) g rfl).elim
        | unref =>
          obtain ⟨_, rfl⟩ := hs
          split <;> simp [Deque.dropFront, Deque.release, hf, hz]
        | setMaxSize n =>
          obtain ⟨_, rfl⟩ := hs
          split <;> simp [Deque.dropFront, Deque.release, hf, hz]
        | clear => obtain ⟨_, rfl⟩ := hs; simp [Deque.dropFront, Deque.release, hf, hz]
        | drop n => obtain ⟨_, rfl⟩ := hs; simp [Deque.dropFront, Deque.release, hf, hz]
        | dropLast n =>
          obtain ⟨_, rfl⟩ := hs
          simp only [Deque.dropBack]
          split <;> simp [Deque.dropFront, Deque.release, hf, hz]
        | reserve n => obtain ⟨b, _, rfl, _⟩ := hs; exact ⟨hf, hz⟩
        | put p => rcases hs with ⟨_, rfl, _⟩ | ⟨_, rfl, _⟩ <;> exact ⟨hf, hz⟩
        | putFront p => rcases hs with ⟨_, rfl, _⟩ | ⟨_, rfl, _⟩ <;> exact ⟨hf, hz⟩
        | _ => obtain ⟨_, rfl⟩ := hs; exact ⟨hf, hz⟩
      exact ih (fun op h => hop op (by simp [h])) this.1 this.2
  exact key h3 hop rfl rfl

/-- **C22** After any allowed history, flatten returns a pointer to the elements in order
(`NULL` if there are none) and their number, and the contents don't change: the list which
the ring represents afterwards is the same. -/
theorem C22_ring_flatten (reserved max : Int) (free : Option Nat)
    (h0 : 0 ≤ reserved) (h1 : reserved ≤ 2 ^ 29) (ops : List Op)
    (ha : Allowed (Deque.new reserved max free) ops) :
    ∃ r os r' d', newFull reserved max free = .ok r ∧ run r ops = .ok (os, r') ∧
      Run (Deque.new reserved max free) ops os d' ∧
      (0 < d'.refs → ∃ r'', exec r' .flatten =
          .ok (.block (if d'.items = [] then none else some d'.items) d'.items.length, r'') ∧
        exec r'' .size = .ok (.int d'.items.length, r'') ∧
        ∀ i : Int, exec r'' (.dataAt i) =
          .ok (.ptr (if i < 0 then 0 else (d'.items[i.toNat]?).getD 0), r'')) := by
  obtain ⟨r, hr, hal⟩ := new_alive reserved max free h0 h1
  obtain ⟨os, r', d', h2, h3, h4⟩ := sim_run ops r _ (.inl hal) ha
  refine ⟨r, os, r', d', hr, h2, h3, fun hrefs => ?_⟩
  rcases h4 with h4 | h4
  · obtain ⟨o, r'', d'', g1, ⟨g2, g3⟩, g4⟩ := sim h4 .flatten ⟨hrefs, trivial⟩
    subst g2; subst g3
    refine ⟨r'', g1, ?_, ?_⟩
    all_goals
      rcases g4 with g4 | g4
      rotate_left 1
      · have := g4.1; simp only at this; omega
    · obtain ⟨o, r3, d3, k1, ⟨rfl, rfl⟩, _⟩ := sim g4 .size ⟨hrefs, trivial⟩
      have hrc : ¬ r''.refCount = 0 := by have := g4.pos; rw [← g4.ref] at this; omega
      simp only [exec, hrc, if_false, size_spec g4.view g4.alloc0 g4.alloc1, bind, Except.bind]
    · intro i
      have hrc : ¬ r''.refCount = 0 := by have := g4.pos; rw [← g4.ref] at this; omega
      simp only [exec, hrc, if_false, dataAt_spec g4, bind, Except.bind]
  · omega

/-- **C23** is false: reserve promises 10 slots but the limit is 3. -/
theorem C23_refuted : history 0 3 none
      [.reserve 10, .put 1, .put 1, .put 1, .put 1] =
    .ok [.bool true, .bool true, .bool true, .bool true, .bool false] := by decide +kernel

theorem puts_room (ps : List Ptr) : ∀ (r : Ring) (d : Deque), Alive r d → d.flat = false →
    d.items.length + ps.length ≤ 2 ^ 29 → (d.items.length : Int) + ps.length ≤ r.alloc →
    ∃ r', run r (ps.map .put) = .ok (ps.map (fun _ => .bool true), r') ∧ r'.allocs = r.allocs := by
  induction ps with
  | nil => intro r d _ _ _ _; exact ⟨r, rfl, rfl⟩
  | cons p ps ih =>
    intro r d h hfl hlen hroom
    simp only [List.length_cons] at hlen hroom
    obtain ⟨b, r1, h1, h2, h3⟩ := put_alive h p (by omega) hfl
    obtain ⟨rfl, h4, h5⟩ := h3 (by omega)
    rcases h2 with ⟨_, h2, _⟩ | ⟨h2, _⟩
    · obtain ⟨r2, g1, g2⟩ := ih r1 _ h2 hfl (by simp; omega) (by simp; omega)
      refine ⟨r2, ?_, by rw [g2, h5]⟩
      have hrc : ¬ r.refCount = 0 := by have := h.pos; rw [← h.ref] at this; omega
      simp only [List.map_cons, run, exec, hrc, if_false, h1]
      rw [ok_bind, ok_bind, g1, ok_bind]
    · cases h2

/-- **C23**, what holds: if `n` doesn't exceed the limit, then reserve succeeds and after it
elements can be stored up to `n` without further allocation. -/
theorem C23_reserve_partial (reserved max : Int) (free : Option Nat)
    (h0 : 0 ≤ reserved) (h1 : reserved ≤ 2 ^ 29) (ops : List Op)
    (ha : Allowed (Deque.new reserved max free) ops) :
    ∃ r os r' d', newFull reserved max free = .ok r ∧ run r ops = .ok (os, r') ∧
      Run (Deque.new reserved max free) ops os d' ∧
      (0 < d'.refs → d'.flat = false → ∀ n : Int, n ≤ 2 ^ 29 → (d'.max < 0 ∨ n ≤ d'.max) →
        ∃ r1, exec r' (.reserve n) = .ok (.bool true, r1) ∧
        ∀ ps : List Ptr, (d'.items.length : Int) + ps.length ≤ n → ∃ r2,
          run r1 (ps.map .put) = .ok (ps.map (fun _ => .bool true), r2) ∧ r2.allocs = r1.allocs) := by
  obtain ⟨r, hr, hal⟩ := new_alive reserved max free h0 h1
  obtain ⟨os, r', d', h2, h3, h4⟩ := sim_run ops r _ (.inl hal) ha
  refine ⟨r, os, r', d', hr, h2, h3, fun hrefs hfl n hn hmax => ?_⟩
  rcases h4 with h4 | h4
  · obtain ⟨b, r1, g1, g2, g3, g4, _⟩ := reserve_alive h4 n hn
    have hrc : ¬ r'.refCount = 0 := by have := h4.pos; rw [← h4.ref] at this; omega
    cases b with
    | false => obtain ⟨_, k1, k2, k3⟩ := g4 rfl; omega
    | true =>
      refine ⟨r1, ?_, fun ps hps => ?_⟩
      · simp only [exec, hrc, if_false, g1]; rw [ok_bind]
      · have := g3 rfl
        exact puts_room ps r1 d' g2 hfl (by omega) (by omega)
  · omega

end Verif.Ring
