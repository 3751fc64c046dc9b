import Verif.Proof.IdleQueueQuiet

/-!
# When dropping the last reference to an idle queue inside of its callback goes wrong
-/

namespace Verif.Idle
open Verif.C

/-- Nothing but `destroy` functions called by `gutil_idle_queue_cancel_tag` is being run, and each of them has been called for an
item which wasn't the first one in the queue. -/
def OnlyInner (stack : List Frame) : Prop := ∀ f ∈ stack, ∃ i, f = .tagOther i

theorem exec_append_error {a b : List Act} {e : UB} : ∀ {s s1 : State}, exec s a = .ok s1 → exec s1 b = .error e → exec s (a ++ b) = .error e := by
  induction a with
  | nil => intro s s1 h1 h2; cases h1; exact h2
  | cons x t ih =>
    intro s s1 h1 h2
    unfold exec at h1
    rw [List.cons_append]
    unfold exec
    split at h1
    · exact ih h1 h2
    · cases h1

theorem exec_prefix_error {a b : List Act} {e : UB} : ∀ {s : State}, exec s a = .error e → exec s (a ++ b) = .error e := by
  induction a with
  | nil => intro s h1; cases h1
  | cons x t ih =>
    intro s h1
    unfold exec at h1
    rw [List.cons_append]
    unfold exec
    split at h1
    · exact ih h1
    · exact h1

theorem dead_rets_ok {fs : List Frame} : ∀ {s : State}, s.stack = fs → s.alive = false → OnlyInner fs →
    ∃ n s', Rets n s s' ∧ s'.stack = [] ∧ s'.alive = false := by
  induction fs with
  | nil => intro s hs ha _; exact ⟨0, s, rets_zero s, hs, ha⟩
  | cons f t ih =>
    intro s hs ha ho
    obtain ⟨i, rfl⟩ := ho f List.mem_cons_self
    obtain ⟨n, s', q, h1, h2⟩ := ih (s := { s with stack := t }) rfl ha (fun g hg => ho g (List.mem_cons_of_mem _ hg))
    refine ⟨1 + n, s', Rets.trans (rets_one ?_) q, h1, h2⟩
    unfold ret
    rw [hs]

theorem dead_rets_error {fs : List Frame} : ∀ {s : State}, s.stack = fs → s.alive = false → ¬ OnlyInner fs →
    ∃ n, exec s (List.replicate n .ret) = .error .useAfterFree := by
  induction fs with
  | nil => intro s _ _ ho; exact absurd (fun f hf => by cases hf) ho
  | cons f t ih =>
    intro s hs ha ho
    have one : ∀ {s : State}, ret s = .error .useAfterFree → exec s [.ret] = .error .useAfterFree := by
      intro s h
      have h : step s .ret = .error .useAfterFree := h
      unfold exec
      rw [h]
    cases f with
    | run d src b i =>
      cases hx : i.destroy with
      | false =>
        refine ⟨1, one ?_⟩
        unfold ret afterRun State.access
        rw [hs]
        simp [hx, ha]
        rfl
      | true =>
        refine ⟨2, exec_append_error (a := [.ret]) (b := [.ret]) (s1 := { s with stack := .runDestroy d src b i :: t, log := s.log ++ [.destroy i.id] }) ?_ (one ?_)⟩
        · refine rets_one ?_
          unfold ret afterRun
          rw [hs]
          simp [hx]
        · unfold ret State.access
          simp [ha]
          rfl
    | runDestroy d src b i =>
      refine ⟨1, one ?_⟩
      unfold ret State.access
      rw [hs]
      simp [ha]
      rfl
    | tagFirst i =>
      refine ⟨1, one ?_⟩
      unfold ret State.access
      rw [hs]
      simp [ha]
      rfl
    | all b fin i =>
      refine ⟨1, one ?_⟩
      unfold ret State.access
      rw [hs]
      simp [ha]
      rfl
    | tagOther i =>
      obtain ⟨n, h⟩ := ih (s := { s with stack := t }) rfl ha (fun g => ho (fun f hf => by
        rcases List.mem_cons.1 hf with rfl | hf
        · exact ⟨i, rfl⟩
        · exact g f hf))
      refine ⟨1 + n, ?_⟩
      rw [← List.replicate_append_replicate]
      refine exec_append_error (rets_one ?_) h
      unfold ret
      rw [hs]

/-- What dropping the last reference does before the callbacks it has been dropped by return. -/
theorem last_unref_any {s : State} (h : Reach s) (hr : s.refs = 1) :
    ∃ n s', exec s (.unref :: List.replicate n .ret) = .ok s' ∧ s'.stack = s.stack ∧ s'.alive = false := by
  have hi := reach_inv h
  have hal : s.alive = true := hi.alive' (by omega)
  obtain ⟨s0, s', e, q, h1, h2, h3, h4, h5, h6, h7⟩ := cancelLoop_quiet (b := s.nextId) (final := true)
    (s := { s with refs := 0, items := markAll s.items, log := s.log ++ [.allCalled s.nextId] }) rfl hal hi.liveEq markAll_completed
  refine ⟨_, s', cons_rets (s0 := s0) ?_ q, h3, h6⟩
  show (do s.access; unref s) = _
  unfold State.access unref
  rw [if_pos hal, ok_bind, if_pos hr]
  exact e

theorem exec_finished {s s' : State} {a : List Act} {n : Nat} (h : exec s a = .ok s') (hs : s'.stack = []) (hn : 0 < n) :
    exec s (a ++ List.replicate n .ret) = .error .badArg := by
  refine exec_append_error h ?_
  obtain ⟨m, rfl⟩ : ∃ m, n = m + 1 := ⟨n - 1, by omega⟩
  rw [List.replicate_succ]
  have e : step s' .ret = .error .badArg := by
    show ret s' = _
    unfold ret
    rw [hs]
  unfold exec
  rw [e]

/-- Whatever has been happening to the queue, if the last reference is dropped now and all callbacks which are being run return without
doing anything else to the queue, that goes well if and only if no callback is being run other than `destroy` functions which
`gutil_idle_queue_cancel_tag` has called for items that weren't the first ones in the queue. Otherwise one of the returns makes the
queue use itself after it has been deallocated. -/
theorem C69_exactly {s : State} (h : Reach s) (hr : s.refs = 1) :
    ((∃ n s', exec s (.unref :: List.replicate n .ret) = .ok s' ∧ s'.stack = []) ↔ OnlyInner s.stack) ∧
    ((∃ n, exec s (.unref :: List.replicate n .ret) = .error .useAfterFree) ↔ ¬ OnlyInner s.stack) := by
  obtain ⟨n, s', e, h1, h2⟩ := last_unref_any h hr
  have good : OnlyInner s.stack → ∃ n s', exec s (.unref :: List.replicate n .ret) = .ok s' ∧ s'.stack = [] := by
    intro ho
    obtain ⟨m, s2, q, h3, h4⟩ := dead_rets_ok h1 h2 ho
    refine ⟨n + m, s2, ?_, h3⟩
    rw [← List.replicate_append_replicate, ← List.cons_append]
    exact exec_append e q
  have bad : ¬ OnlyInner s.stack → ∃ n, exec s (.unref :: List.replicate n .ret) = .error .useAfterFree := by
    intro ho
    obtain ⟨m, q⟩ := dead_rets_error h1 h2 ho
    refine ⟨n + m, ?_⟩
    rw [← List.replicate_append_replicate, ← List.cons_append]
    exact exec_append_error e q
  have excl : ∀ {n m : Nat} {s' : State}, exec s (.unref :: List.replicate n .ret) = .ok s' → s'.stack = [] →
      exec s (.unref :: List.replicate m .ret) = .error .useAfterFree → False := by
    intro n m s' h3 h4 h5
    rcases Nat.lt_or_ge n m with hlt | hge
    · have := exec_finished h3 h4 (n := m - n) (by omega)
      rw [List.cons_append, List.replicate_append_replicate, show n + (m - n) = m from by omega, h5] at this
      cases this
    · have := exec_prefix_error (b := List.replicate (n - m) .ret) h5
      rw [List.cons_append, List.replicate_append_replicate, show m + (n - m) = n from by omega, h3] at this
      cases this
  refine ⟨⟨?_, good⟩, ⟨?_, bad⟩⟩
  · rintro ⟨n, s', h3, h4⟩
    rcases Classical.em (OnlyInner s.stack) with ho | ho
    · exact ho
    · obtain ⟨m, h5⟩ := bad ho
      exact (excl h3 h4 h5).elim
  · rintro ⟨m, h5⟩ ho
    obtain ⟨n, s', h3, h4⟩ := good ho
    exact excl h3 h4 h5

/-- A function called for the second item drops the last reference: fine. The first one is destroyed then, and its function returns. -/
example : exec new [.add 1 true true, .add 2 true true, .cancelTag 2, .unref, .ret, .ret] =
    .ok ⟨false, 0, none, [], none, [], 2, 2, 0, [], [.added 0 true true, .added 1 true true, .cancel 1, .destroy 1, .allCalled 2, .cancel 0, .destroy 0, .allDone 2]⟩ := by decide +kernel

example : ∃ s, Reach s ∧ s.refs = 1 ∧ OnlyInner s.stack ∧ s.stack ≠ [] := by
  refine ⟨_, reach_exec (acts := [.add 1 true true, .add 2 true true, .cancelTag 2]) .new (by decide +kernel)
    (s' := ⟨true, 1, some 1, [⟨0, 1, true, true, false⟩], some 0, [1], 2, 2, 0, [.tagOther ⟨1, 2, true, true, false⟩],
      [.added 0 true true, .added 1 true true, .cancel 1, .destroy 1]⟩) (by decide +kernel), rfl, ?_, by simp⟩
  intro f hf
  simp at hf
  exact ⟨_, hf⟩

/-- Inside of an idle function which has called `gutil_idle_queue_cancel_tag`: not fine. -/
example : ∃ s, Reach s ∧ s.refs = 1 ∧ ¬ OnlyInner s.stack ∧ s.stack.length = 2 := by
  refine ⟨_, reach_exec (acts := [.add 1 true true, .add 2 true true, .add 3 true true, .dispatch 1, .cancelTag 3]) .new (by decide +kernel)
    (s' := ⟨true, 1, some 1, [⟨1, 2, true, true, true⟩], some 1, [1], 2, 3, 1, [.tagOther ⟨2, 3, true, true, true⟩, .run 0 1 3 ⟨0, 1, true, true, true⟩],
      [.added 0 true true, .added 1 true true, .added 2 true true, .begin 0, .run 0 0, .cancel 2, .destroy 2]⟩) (by decide +kernel), rfl, ?_, rfl⟩
  intro h
  obtain ⟨i, hi⟩ := h (.run 0 1 3 ⟨0, 1, true, true, true⟩) (by simp)
  cases hi

end Verif.Idle
