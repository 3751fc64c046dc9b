import Verif.Props.InotifyShared
import Verif.Spec.InotifyReads

/-!
# It doesn't matter how many events are read at once: C158
-/

namespace Verif.Inotify
open Verif.C Spec

theorem read_quiet {s : State} (h : Reach anything s) {n : Nat} (ha : Allowed s (.dispatch n)) {i : Inst} (hi : s.inst = some i) :
    exec s (.dispatch n :: List.replicate (toCall i.table (s.queue.take n)).length .ret) =
      .ok { s with queue := s.queue.drop n, log := s.log ++ (toCall i.table (s.queue.take n)).map (fun p => .delivered p.1 p.2) } := by
  have hr := reach_rest h
  obtain ⟨_, h1, hf, i', hi', _⟩ := ha
  rw [hi] at hi'
  cases hi'
  have ht : ∀ d w, tableLookup i.table d = some w → ∃ x, s.watches[w]? = some x ∧ 0 < x.refs := by
    intro d w hl
    obtain ⟨x, hx, hd⟩ := hr.inv.table i hi d w (lookup_mem hl)
    refine ⟨x, hx, ?_⟩
    rcases Nat.eq_zero_or_pos x.refs with h0 | h0
    · rw [hr.inv.dead w x hx h0] at hd; cases hd
    · exact h0
  obtain ⟨s1, e, q⟩ := proc_quiet hi (hr.inv.pos i hi) hf (q := s.queue.drop n) ht (s.queue.take n) s.log
  have hd : dispatch none s n = .ok s1 := by
    unfold dispatch
    rw [hi]
    exact e
  have := cons_rets (s := s) (a := .dispatch n) (s0 := s1) hd q
  rw [this]

theorem rets_stop {s : State} (hf : s.frame = none) {k : Nat} {s' : State} (e : exec s (List.replicate k .ret) = .ok s') : k = 0 := by
  cases k with
  | zero => rfl
  | succ k =>
    have h1 : step none s .ret = .error .badArg := by
      show ret none s = _
      unfold ret
      rw [hf]
    rw [List.replicate_succ, exec, h1] at e
    cases e

theorem exec_split {l m : List Act} {s s' : State} (e : exec s (l ++ m) = .ok s') : ∃ s1, exec s l = .ok s1 ∧ exec s1 m = .ok s' := by
  induction l generalizing s with
  | nil => exact ⟨s, rfl, e⟩
  | cons a l ih =>
    rw [List.cons_append, exec] at e
    rw [exec]
    cases h : step none s a with
    | error _ => rw [h] at e; cases e
    | ok s1 => rw [h] at e; exact ih e

/-- The number of calls is known -/
theorem rets_unique {s s1 s2 : State} {a : Act} {j k : Nat} (e1 : exec s (a :: List.replicate j .ret) = .ok s1) (f1 : s1.frame = none)
    (e2 : exec s (a :: List.replicate k .ret) = .ok s2) (f2 : s2.frame = none) : s1 = s2 := by
  have key : ∀ {j k : Nat} {s1 s2 : State}, j ≤ k → exec s (a :: List.replicate j .ret) = .ok s1 → s1.frame = none →
      exec s (a :: List.replicate k .ret) = .ok s2 → s1 = s2 := by
    intro j k s1 s2 hjk e1 f1 e2
    obtain ⟨d, rfl⟩ : ∃ d, k = j + d := ⟨k - j, by omega⟩
    rw [← List.replicate_append_replicate, ← List.cons_append] at e2
    obtain ⟨s3, e3, e4⟩ := exec_split e2
    rw [e1] at e3
    cases e3
    have := rets_stop f1 e4
    subst this
    cases e4
    rfl
  rcases Nat.le_total j k with h | h
  · exact key h e1 f1 e2
  · exact (key h e2 f2 e1).symm

theorem reach_exec_ret {s s' : State} (h : Reach anything s) {k : Nat} (e : exec s (List.replicate k .ret) = .ok s') : Reach anything s' := by
  induction k generalizing s with
  | zero => cases e; exact h
  | succ k ih =>
    rw [List.replicate_succ, exec] at e
    cases h1 : step none s .ret with
    | error _ => rw [h1] at e; cases e
    | ok s1 =>
      rw [h1] at e
      refine ih (h.step (race := none) ?_ (by simp) trivial h1) e
      intro hf
      have : step none s .ret = .error .badArg := by
        show ret none s = _
        unfold ret
        rw [hf]
      rw [this] at h1
      cases h1

theorem reach_read {s s' : State} (h : Reach anything s) {n k : Nat} (ha : Allowed s (.dispatch n)) (e : exec s (.dispatch n :: List.replicate k .ret) = .ok s') :
    Reach anything s' := by
  rw [exec] at e
  cases h1 : step none s (.dispatch n) with
  | error _ => rw [h1] at e; cases e
  | ok s1 =>
    rw [h1] at e
    exact reach_exec_ret (h.step (race := none) ha (by simp) trivial h1) e

/-- What has been read in the end -/
theorem reads_result {s s' : State} {ns : List Nat} (h : Reach anything s) (hr : Reads s ns s') {i : Inst} (hi : s.inst = some i) :
    s' = { s with queue := s.queue.drop ns.sum, log := s.log ++ (toCall i.table (s.queue.take ns.sum)).map (fun p => .delivered p.1 p.2) } ∧ ns.sum ≤ s.queue.length := by
  induction hr with
  | nil => simp [toCall]
  | @cons s s1 s' n k ns ha e hf hr ih =>
    have hn : n ≤ s.queue.length := ha.2.1
    have e0 := rets_unique e hf (read_quiet h ha hi) ha.2.2.1
    have h1 := reach_read h ha e
    have hi1 : s1.inst = some i := by rw [e0]; exact hi
    obtain ⟨e2, e3⟩ := ih h1 hi1
    rw [e2, e0]
    rw [e0] at e3
    simp only [List.length_drop] at e3
    refine ⟨?_, by rw [List.sum_cons]; omega⟩
    rw [List.sum_cons, List.take_add, List.drop_drop]
    simp [toCall, List.filterMap_append]

/-- **C158** If the handlers do nothing to the watches, then it doesn't matter how many events the kernel returns at once: as long as the total number is the same, everything
is the same in the end, including the handlers which have been called, and the order in which they have been called. -/
theorem C158_split {s s1 s2 : State} {ns ms : List Nat} (h : Reach anything s) (hi : s.inst ≠ none) (h1 : Reads s ns s1) (h2 : Reads s ms s2) (hsum : ns.sum = ms.sum) :
    s1 = s2 := by
  obtain ⟨i, hi⟩ := Option.ne_none_iff_exists'.1 hi
  rw [(reads_result h h1 hi).1, (reads_result h h2 hi).1, hsum]

/-- **C158** And any number of them may be returned. -/
theorem C158_possible {s : State} {ns : List Nat} (h : Reach anything s) (hf : s.frame = none) {i : Inst} (hi : s.inst = some i) (hs : i.source = true)
    (hp : ∀ n ∈ ns, 1 ≤ n) (hsum : ns.sum ≤ s.queue.length) : ∃ s', Reads s ns s' ∧ s'.frame = none ∧ s'.queue = s.queue.drop ns.sum := by
  induction ns generalizing s with
  | nil => exact ⟨s, .nil, hf, by simp⟩
  | cons n ns ih =>
    rw [List.sum_cons] at hsum
    have ha : Allowed s (.dispatch n) := ⟨hp n List.mem_cons_self, by omega, hf, i, hi, hs⟩
    have e := read_quiet h ha hi
    obtain ⟨s', h1, h2, h3⟩ := ih (s := { s with queue := s.queue.drop n, log := s.log ++ (toCall i.table (s.queue.take n)).map (fun p => .delivered p.1 p.2) })
      (reach_read h ha e) hf hi (fun m hm => hp m (List.mem_cons_of_mem _ hm)) (by simp only [List.length_drop]; omega)
    refine ⟨s', .cons ha e hf h1, h2, ?_⟩
    rw [h3, List.sum_cons]
    simp only [List.drop_drop]

/-- Two events of different watches at once, or one after another -/
example : ∃ s, Reach anything s ∧ s.inst ≠ none ∧ s.queue.length = 2 ∧ ∃ s', Reads s [2] s' ∧ Reads s [1, 1] s' ∧
    s'.log = s.log ++ [.delivered 0 ⟨2, 0, []⟩, .delivered 1 ⟨4, 0, []⟩] := by
  obtain ⟨s, e, h⟩ := reach_exec (l := [.new 7 2 3, .new 8 4 3, .happen 7 ⟨2, 0, []⟩, .happen 8 ⟨4, 0, []⟩]) (.init [] List.nodup_nil) (by decide)
  cases e
  refine ⟨_, h, by decide, by decide, _, .cons (k := 2) (by decide) rfl rfl .nil, .cons (k := 1) (by decide) rfl rfl (.cons (k := 1) (by decide) rfl rfl .nil), by decide⟩

end Verif.Inotify
