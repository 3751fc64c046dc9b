import Verif.Proof.IdleRelease

/-!
# C130: the last reference to an idle queue is dropped by another thread
-/

namespace Verif.IdleRelease
open Verif.C Verif.IdleThreads

/-- **C130** As long as the thread doesn't use the queue while the main loop is running the callbacks (and the other way around) nothing bad happens. -/
theorem C130_safe_partial {s : State} (h : Reach Apart s) {a : Act} (ha : Allowed s a) (hp : Apart s a) : ∃ s', step s a = .ok s' := by
  obtain ⟨s', h1, -⟩ := step_inv (reach_inv h) ha hp
  exact ⟨s', h1⟩

/-- **C130** Under the same rule, when the queue has been released, the destroy function has been called for all those callbacks which haven't been run, in the order in which they
were added, the queue has been deallocated and nothing is left in the main loop. Until the queue has been released, it's not deallocated. -/
theorem C130_end_partial {s : State} (h : Reach Apart s) :
    (s.rel = .done → runs s.q.hist ++ s.cancelled = adds s.q.hist ∧ s.alive = false ∧ s.q.live = []) ∧
    (s.rel ≠ .done → s.alive = true) ∧
    (s.rel = .off → s.cancelled = []) := by
  rcases reach_inv h with ⟨h0, h1, h2, k0, k, hi⟩ | ⟨h0, k, c, hi⟩ | ⟨h0, h1, h2, h3, h4, h5⟩
  · exact ⟨(fun h => by rw [h0] at h; cases h), fun _ => h1, fun _ => h2⟩
  · exact ⟨fun h => (h0.2 h).elim, fun _ => hi.alive, fun h => (h0.1 h).elim⟩
  · exact ⟨fun _ => ⟨h5, h1, h4⟩, fun h => (h h0).elim, fun h => by rw [h0] at h; cases h⟩

/-- **C130** Under the same rule, dropping the last reference takes a number of steps which is proportional to what has been added. Nothing is run meanwhile. -/
theorem C130_finish_partial {s : State} (h : Reach Apart s) (ha : Allowed s .unref) (hp : Apart s .unref) :
    ∃ n s', n ≤ 12 * (adds s.q.hist).length + 9 ∧ exec s (.unref :: List.replicate n .release) = .ok s' ∧ s'.rel = .done ∧
      s'.q.hist = s.q.hist ∧ runs s.q.hist ++ s'.cancelled = adds s.q.hist := by
  obtain ⟨s1, e, hi⟩ := step_inv (reach_inv h) ha hp
  cases e
  rcases hi with ⟨h0, -⟩ | ⟨-, k, c, hi⟩ | ⟨h0, -⟩
  · cases h0
  · obtain ⟨n, s', b1, b2, b3, b4, b5, b6, b7⟩ := rel_runs _ hi (Nat.le_refl _)
    have b6 : s'.q.hist = s.q.hist := b6
    refine ⟨n, s', ?_, b2, b3, b6, by rw [b6] at b7; exact b7⟩
    have hl : (adds s.q.hist).length = s.q.items.length := by rw [show adds s.q.hist = _ from hi.data, List.length_map]
    rw [hl]
    simp only [rwt] at b1
    have := hi.le
    dsimp only at this b1
    omega
  · cases h0

instance (s : State) : Decidable (Releasing s) := by unfold Releasing; infer_instance

instance (s : State) (a : Act) : Decidable (Allowed s a) := by
  cases a <;> unfold Allowed <;> infer_instance

/-- Follows the rules as long as the actions last -/
def follow (s : State) : List Act → Option State
  | [] => some s
  | a :: l =>
    if Allowed s a then
      match step s a with
      | .ok s => follow s l
      | .error _ => none
    else none

theorem reach_follow : ∀ (l : List Act) {s s' : State}, Reach (fun _ _ => True) s → follow s l = some s' → Reach (fun _ _ => True) s' := by
  intro l
  induction l with
  | nil => intro s s' h he; cases he; exact h
  | cons a l ih =>
    intro s s' h he
    unfold follow at he
    split at he
    · rename_i ha
      cases e : step s a with
      | error x => rw [e] at he; cases he
      | ok t => rw [e] at he; exact ih (.step h ha trivial e) he
    · cases he

/-- The thread adds something to an empty queue. -/
def addFirst (d : Nat) : List Act := .add d :: List.replicate 6 .work

/-- The source has been dispatched, then the queue is deallocated. -/
def early : List Act := addFirst 1 ++ .dispatch 1 :: .unref :: List.replicate 19 .release

/-- **C130**, the following is false: nothing bad happens. The main loop may use the queue after it has been deallocated by the thread. -/
theorem C130_freed_refuted : ∃ s, Reach (fun _ _ => True) s ∧ s.rel = .done ∧ Allowed s .main ∧ step s .main = .error .useAfterFree :=
  ⟨⟨⟨[⟨1, none, true, true⟩], none, none, none, [], 2, .start 1, .idle, [.adding 1, .added, .running]⟩, false, .done, [1]⟩, reach_follow early .init (by decide +kernel), rfl, by decide, by decide⟩

/-- Both have found the same item. -/
def both : List Act := addFirst 1 ++ .dispatch 1 :: List.replicate 3 .main ++ .unref :: List.replicate 7 .release ++ List.replicate 9 .main ++ List.replicate 5 .release

/-- **C130**, the following is false: the destroy function is called once. The main loop may do that, and then the thread once more, after which they both free the item. -/
theorem C130_twice_refuted : ∃ s, Reach (fun _ _ => True) s ∧ adds s.q.hist = [1] ∧ runs s.q.hist = [1] ∧ s.cancelled = [1] ∧
    ∃ s', Allowed s .main ∧ exec s (List.replicate 2 .main) = .ok s' ∧ Allowed s' .release ∧ step s' .release = .error .useAfterFree :=
  ⟨⟨⟨[⟨1, none, true, false⟩], none, none, some 1, [1], 2, .free 1 (some 0), .idle, [.adding 1, .added, .running, .ran 1]⟩, true, .free 0, [1]⟩,
    reach_follow both .init (by decide +kernel), by decide, by decide, rfl,
    ⟨⟨[⟨1, none, true, true⟩], none, none, some 1, [1], 2, .check 1, .idle, [.adding 1, .added, .running, .ran 1]⟩, true, .free 0, [1]⟩, by decide, by decide, by decide, by decide⟩

/-! Something happens under the rule: two callbacks are added and run, two more are added, then the queue is released. -/

/-- The additional rule isn't broken by that. -/
def calm (s : State) : Act → Bool
  | .add _ | .unref => s.q.main = .idle
  | .dispatch _ => s.q.work = .idle ∧ ¬ Releasing s
  | _ => true

theorem calm_ok {s : State} (hi : Inv s) {a : Act} (ha : Allowed s a) (hc : calm s a = true) : Apart s a := by
  have off : s.rel = .off → ∃ k0 k, InvS s.q k0 k := by
    intro h
    rcases hi with ⟨_, _, _, k0, k, hi⟩ | ⟨h0, -⟩ | ⟨h0, -⟩
    · exact ⟨k0, k, hi⟩
    · exact (h0.1 h).elim
    · rw [h0] at h; cases h
  cases a with
  | add d =>
    obtain ⟨k0, k, hi⟩ := off ha.2
    exact fun hr => hi.running.1 hr (by simpa [calm] using hc)
  | unref =>
    obtain ⟨k0, k, hi⟩ := off ha.2
    exact fun hr => hi.running.1 hr (by simpa [calm] using hc)
  | dispatch id =>
    have hc : s.q.work = .idle ∧ ¬ Releasing s := by simpa [calm] using hc
    refine ⟨?_, hc.2⟩
    rcases hi with ⟨h0, _, _, k0, k, hi⟩ | ⟨h0, -⟩ | ⟨_, _, _, _, h4, _⟩
    · exact fun hr => hi.adding.1 hr hc.1
    · exact (hc.2 h0).elim
    · have := ha.2; rw [h4] at this; cases this
  | work => trivial
  | main => trivial
  | release => trivial

/-- Follows all of the rules as long as the actions last -/
def followCalm (s : State) : List Act → Option State
  | [] => some s
  | a :: l =>
    if Allowed s a ∧ calm s a = true then
      match step s a with
      | .ok s => followCalm s l
      | .error _ => none
    else none

theorem reach_calm : ∀ (l : List Act) {s s' : State}, Reach Apart s → followCalm s l = some s' → Reach Apart s' := by
  intro l
  induction l with
  | nil => intro s s' h he; cases he; exact h
  | cons a l ih =>
    intro s s' h he
    unfold followCalm at he
    split at he
    · rename_i ha
      cases e : step s a with
      | error x => rw [e] at he; cases he
      | ok t => rw [e] at he; exact ih (.step h ha.1 (calm_ok (reach_inv h) ha.1 ha.2) e) he
    · cases he

/-- Two callbacks are added and run, and two more are added. -/
def example1 : List Act :=
  addFirst 7 ++ .add 8 :: List.replicate 5 .work ++ .dispatch 1 :: List.replicate 27 .main ++ addFirst 9 ++ .add 10 :: List.replicate 5 .work

example : ∃ s s', followCalm init example1 = some s ∧ Reach Apart s ∧ Allowed s .unref ∧ Apart s .unref ∧ adds s.q.hist = [7, 8, 9, 10] ∧ runs s.q.hist = [7, 8] ∧
    followCalm s (.unref :: List.replicate 30 .release) = some s' ∧ s'.rel = .done ∧ s'.cancelled = [9, 10] := by
  refine ⟨⟨⟨[⟨7, none, true, true⟩, ⟨8, some 0, true, true⟩, ⟨9, some 3, false, false⟩, ⟨10, none, false, false⟩], some 2, some 3, some 2, [2], 3, .idle, .idle,
    [.adding 7, .added, .adding 8, .added, .running, .ran 7, .ran 8, .finished, .adding 9, .added, .adding 10, .added]⟩, true, .off, []⟩,
    ⟨⟨[⟨7, none, true, true⟩, ⟨8, some 0, true, true⟩, ⟨9, some 3, true, true⟩, ⟨10, none, true, true⟩], none, none, none, [], 3, .idle, .idle,
    [.adding 7, .added, .adding 8, .added, .running, .ran 7, .ran 8, .finished, .adding 9, .added, .adding 10, .added]⟩, false, .done, [9, 10]⟩, ?_⟩
  have e : followCalm init example1 = some _ := (by decide +kernel : followCalm init example1 = some ⟨⟨[⟨7, none, true, true⟩, ⟨8, some 0, true, true⟩, ⟨9, some 3, false, false⟩, ⟨10, none, false, false⟩], some 2, some 3, some 2, [2], 3, .idle, .idle,
    [.adding 7, .added, .adding 8, .added, .running, .ran 7, .ran 8, .finished, .adding 9, .added, .adding 10, .added]⟩, true, .off, []⟩)
  have hr := reach_calm example1 .init e
  refine ⟨e, hr, by decide, ?_, by decide, by decide, by decide +kernel, rfl, rfl⟩
  exact calm_ok (a := .unref) (reach_inv hr) (by decide) (by decide)

end Verif.IdleRelease
