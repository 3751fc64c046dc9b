import Verif.Proof.IdlePoolThreads

/-! # Idle pool whose sources are dispatched by another thread (C121) -/

namespace Verif.PoolThreads
open Verif.C Spec

/-- **C121** In any order of what the two threads do, the pool isn't used after it's been deallocated or
deallocated twice, and the reference counter never goes below zero. -/
theorem C121_safe (P : State → Act → Prop) (s : State) (h : Reach P s) (a : Act) (ha : Allowed s a) : ∃ s', step s a = .ok s' := by
  obtain ⟨s', h1, -⟩ := inv_step (reach_inv h) ha
  exact ⟨s', h1⟩

/-- **C121** Items are destroyed in the order in which they have been added, each one at most once. If the pool is deallocated, that happens
once, and all of them have been destroyed. -/
theorem C121_items (P : State → Act → Prop) (s : State) (h : Reach P s) :
    destroyed s.log <+: added s.log ∧ (added s.log).Nodup ∧ s.log.count .freed ≤ 1 ∧
      (Event.freed ∈ s.log → destroyed s.log = added s.log) := by
  have hi := reach_inv h
  refine ⟨⟨s.items, hi.log⟩, ?_, hi.once, fun hf => ?_⟩
  · rw [hi.range]; exact List.nodup_range
  · have := hi.log
    rw [hi.empty (hi.freed.1 hf), List.append_nil] at this
    exact this

/-- **C121** The pool exists as long as its owner has a reference, or there is a source, or one is being dispatched. -/
theorem C121_alive (P : State → Act → Prop) (s : State) (h : Reach P s) :
    (s.alive = true ↔ 0 < s.owned ∨ s.live ≠ [] ∨ s.main ≠ .away) ∧ (s.alive = false ↔ Event.freed ∈ s.log) := by
  have hi := reach_inv h
  refine ⟨?_, hi.freed.symm⟩
  rw [hi.alive, hi.refs]
  have hp : 0 < pending s.owner → 0 < s.owned := fun hp => hi.owned (fun e => by rw [e] at hp; simp [pending] at hp)
  have hm : mainRefs s.main = 0 ↔ s.main = .away := by cases s.main <;> simp [mainRefs]
  have hl : s.live.length = 0 ↔ s.live = [] := List.length_eq_zero_iff
  rw [Ne, Ne, ← hl, ← hm]
  omega

/-- **C121** What's added is a new item, and what's added by others isn't affected. -/
theorem C121_added (P : State → Act → Prop) (s s' : State) (h : Reach P s) (a : Act) (hs : step s a = .ok s') (ha : Allowed s a) :
    (a = .add → ∃ i, i ∉ added s.log ∧ s'.log = s.log ++ [.added i]) ∧ (a ≠ .add → added s'.log = added s.log) := by
  have hi := reach_inv h
  refine ⟨fun e => ?_, fun e => ?_⟩
  · subst e
    obtain ⟨h1, h2⟩ := ha
    rw [step, addStart, access_ok (hi.alive.2 (by rw [hi.refs]; omega)), ok_bind] at hs
    cases hs
    exact ⟨s.nextId, by rw [hi.range]; simp, rfl⟩
  · exact (step_added hi ha hs).1 e

/-- **C121** The main thread doesn't destroy anything, unless it's got the last reference to the pool. The owner of the pool only does that
when it's draining the pool, or drops the last reference. -/
theorem C121_wrong_thread (P : State → Act → Prop) (s s' : State) (h : Reach P s) (a : Act) (hs : step s a = .ok s') (ha : Allowed s a)
    (hd : a ≠ .drain) : destroyed s'.log = destroyed s.log ∨ (a = .main ∨ a = .unref) ∧ Event.freed ∈ s'.log ∧ Event.freed ∉ s.log :=
  (step_added (reach_inv h) ha hs).2 hd

/-- The source is dispatched after it has been attached but before its id is stored -/
def early : List Act := [.add, .go, .go, .go, .dispatch 1, .main, .main, .go]

/-- What `early` does -/
def stuck : State :=
  { new with idle := 1, items := [0], nextSource := 2, nextId := 1, log := [.added 0] }

/-- **C121**, the following is false: whatever is pending is going to be released by the main loop, at the
latest when something is added next time. If the source has been dispatched before its id is stored then there are no sources, and
there won't be any no matter how much is added. -/
theorem C121_stuck_refuted :
    ∃ s, Reach (fun _ _ => True) s ∧ s.owner = .ready ∧ s.main = .away ∧ 0 < s.owned ∧ s.items ≠ [] ∧ s.live = [] ∧
      ∀ n, ∃ s', exec s (List.replicate n [.add, .go]).flatten = .ok s' ∧ Reach (fun _ _ => True) s' ∧
        s'.owner = .ready ∧ s'.items.length = s.items.length + n ∧ s'.live = [] := by
  have hr : Reach (fun _ _ => True) stuck :=
    reach_exec (fun _ _ => trivial) .new early (by decide +kernel) (by decide +kernel)
  have key : ∀ n (s : State), Reach (fun _ _ => True) s → s.owner = .ready → 0 < s.owned → s.idle ≠ 0 → s.live = [] →
      ∃ s', exec s (List.replicate n [.add, .go]).flatten = .ok s' ∧ Reach (fun _ _ => True) s' ∧
        s'.owner = .ready ∧ s'.items.length = s.items.length + n ∧ s'.live = [] := by
    intro n
    induction n with
    | zero => intro s h1 h2 _ _ h5; exact ⟨s, rfl, h1, h2, by simp, h5⟩
    | succ n ih =>
      intro s h1 h2 h3 h4 h5
      have hi := reach_inv h1
      have ha : s.alive = true := hi.alive.2 (by rw [hi.refs]; omega)
      let s1 : State := { s with items := s.items ++ [s.nextId], nextId := s.nextId + 1, log := s.log ++ [.added s.nextId], owner := .addRead }
      have e1 : step s .add = .ok s1 := by rw [step, addStart, access_ok ha, ok_bind]
      have e2 : step s1 .go = .ok { s1 with owner := .ready } := by
        rw [step, go, access_ok (show s1.alive = true from ha), ok_bind]
        show Except.ok { s1 with owner := if s1.idle = 0 then Owner.addRef else Owner.ready } = _
        rw [if_neg (show s1.idle ≠ 0 from h4)]
      have r1 : Reach (fun _ _ => True) s1 := .step h1 (a := .add) ⟨h2, h3⟩ trivial e1
      have r2 : Reach (fun _ _ => True) { s1 with owner := .ready } := .step r1 (a := .go) (by show Owner.addRead ≠ .ready; simp) trivial e2
      obtain ⟨s', q1, q2, q3, q4, q5⟩ := ih { s1 with owner := .ready } r2 rfl h3 h4 h5
      refine ⟨s', ?_, q2, q3, ?_, q5⟩
      · rw [List.replicate_succ, List.flatten_cons]
        show exec s (.add :: .go :: _) = _
        rw [exec, e1]
        show exec s1 (.go :: _) = _
        rw [exec, e2]
        exact q1
      · rw [q4]
        show (s.items ++ [s.nextId]).length + n = _
        simp
        omega
  exact ⟨stuck, hr, rfl, rfl, by decide, by decide, rfl, fun n => key n stuck hr rfl (by decide) (by decide) rfl⟩

/-- **C121**, what holds if sources aren't dispatched until their ids are stored: if there are no sources then adding something schedules
one. -/
theorem C121_scheduled_partial (s : State) (h : Reach Stored s) (hw : s.owner = .ready) (ho : 0 < s.owned)
    (hm : s.main = .away) (hl : s.live = []) :
    ∃ s' id, exec s [.add, .go, .go, .go, .go] = .ok s' ∧ s'.owner = .ready ∧ s'.live = [id] ∧ s'.idle = id ∧ s'.items ≠ [] := by
  have hi := reach_inv h
  have hs := reach_invS h
  have ha : s.alive = true := hi.alive.2 (by rw [hi.refs]; omega)
  have h0 : s.idle = 0 := by
    rcases Classical.em (s.idle = 0) with e | e
    · exact e
    · rcases hs.idle e with q | ⟨r, q⟩
      · rw [hl] at q; cases q
      · rw [hm] at q; cases q
  refine ⟨{ s with items := s.items ++ [s.nextId], nextId := s.nextId + 1, log := s.log ++ [.added s.nextId], owner := .ready, refs := s.refs + 1, live := [s.nextSource], nextSource := s.nextSource + 1, idle := s.nextSource }, s.nextSource, ?_, rfl, rfl, rfl, by simp⟩
  simp [exec, step, addStart, go, State.access, ha, h0, hl, bind, Except.bind]

/-- **C121** Draining the pool, if nothing interferes with that, destroys everything, removes the source which it knows and makes up for a missing source: afterwards, adding
something schedules a new one. -/
theorem C121_drain (P : State → Act → Prop) (s : State) (h : Reach P s) (hw : s.owner = .ready) (ho : 0 < s.owned) :
    ∃ s1 s2 s3 s4, step s .drain = .ok s1 ∧ finish 4 s1 = .ok s2 ∧ s2.owner = .ready ∧ destroyed s2.log = added s2.log ∧ s2.idle = 0 ∧
      s2.live = s.live.erase s.idle ∧
      step s2 .add = .ok s3 ∧ finish 4 s3 = .ok s4 ∧ s4.owner = .ready ∧ s4.idle ∈ s4.live := by
  have hi := reach_inv h
  have ha : s.alive = true := hi.alive.2 (by rw [hi.refs]; omega)
  have hlog : destroyed (s.log ++ s.items.map .destroy) = added (s.log ++ s.items.map .destroy) := by
    rw [destroyed_append, added_append, destroyed_map, added_map, List.append_nil]; exact hi.log
  have key : ∀ s2 : State, s2.alive = true → s2.owner = .ready → s2.idle = 0 →
      ∃ s3 s4, step s2 .add = .ok s3 ∧ finish 4 s3 = .ok s4 ∧ s4.owner = .ready ∧ s4.idle ∈ s4.live := by
    intro s2 ha hw h0
    refine ⟨{ s2 with items := s2.items ++ [s2.nextId], nextId := s2.nextId + 1, log := s2.log ++ [.added s2.nextId], owner := .addRead }, { s2 with items := s2.items ++ [s2.nextId], nextId := s2.nextId + 1, log := s2.log ++ [.added s2.nextId], owner := .ready, refs := s2.refs + 1, live := s2.live ++ [s2.nextSource], nextSource := s2.nextSource + 1, idle := s2.nextSource }, ?_, ?_, rfl, by simp⟩
    · rw [step, addStart, access_ok ha, ok_bind]
    · simp [finish, go, State.access, ha, h0, bind, Except.bind]
  have e1 : step s .drain = .ok { destroyItems s with owner := .drainRead } := by rw [step, drainStart, access_ok ha, ok_bind]
  by_cases h0 : s.idle = 0
  · have e2 : finish 4 { destroyItems s with owner := .drainRead } = .ok { destroyItems s with owner := .ready } := by
      simp [finish, go, State.access, destroyItems, ha, h0, bind, Except.bind]
    obtain ⟨s3, s4, q1, q2, q3, q4⟩ := key { destroyItems s with owner := .ready } ha rfl h0
    exact ⟨_, _, s3, s4, e1, e2, rfl, hlog, h0, by rw [h0, List.erase_of_not_mem (fun e => absurd (reach_ids h 0 e) (by omega))]; rfl, q1, q2, q3, q4⟩
  · have hi3 : Inv { s with items := [], log := s.log ++ s.items.map .destroy, owner := .drainRemove s.idle, idle := 0 } := by
      have hr := hi.refs
      rw [hw] at hr
      exact ⟨hi.alive, hr, fun _ => ho, by show destroyed _ ++ [] = _; rw [List.append_nil]; exact hlog,
        by show added (_ ++ _) = _; rw [added_append, added_map, List.append_nil]; exact hi.range,
        by show Event.freed ∈ _ ++ _ ↔ _; simpa using hi.freed,
        by show List.count _ (_ ++ _) ≤ 1; rw [List.count_append, List.count_eq_zero_of_not_mem (freed_map s.items)]; exact hi.once,
        fun _ => rfl⟩
    obtain ⟨s', q1, q2⟩ := inv_remove hi3 ho (by simp) s.idle
    have e2 : finish 4 { destroyItems s with owner := .drainRead } = .ok { s' with owner := .ready } := by
      rw [ha] at q1
      simp [finish, go, State.access, destroyItems, ha, h0, bind, Except.bind, q1]
    have qs : s'.idle = 0 ∧ destroyed s'.log = destroyed (s.log ++ s.items.map .destroy) ∧ added s'.log = added (s.log ++ s.items.map .destroy) ∧
        s'.alive = true ∧ s'.live = s.live.erase s.idle := by
      rw [removeSource] at q1
      split at q1
      · split at q1
        · cases q1
        · cases q1; exact ⟨rfl, rfl, rfl, ha, rfl⟩
      · rename_i hn
        have hn := (List.erase_of_not_mem hn).symm
        split at q1
        · cases q1; exact ⟨rfl, rfl, rfl, ha, hn⟩
        · split at q1
          · cases q1; exact ⟨rfl, rfl, rfl, ha, hn⟩
          · cases q1
            refine ⟨rfl, ?_, ?_, ha, hn⟩
            · show destroyed ((_ ++ _) ++ _) = _
              rw [destroyed_append _ [Event.critical _]]; simp [destroyed]
            · show added ((_ ++ _) ++ _) = _
              rw [added_append _ [Event.critical _]]; simp [added]
    obtain ⟨s3, s4, r1, r2, r3, r4⟩ := key { s' with owner := .ready } qs.2.2.2.1 rfl qs.1
    exact ⟨_, _, s3, s4, e1, e2, rfl, by show destroyed s'.log = added s'.log; rw [qs.2.1, qs.2.2.1]; exact hlog, qs.1, qs.2.2.2.2, r1, r2, r3, r4⟩

/-- Dispatched between reading the id and removing the source -/
def late : List Act := [.add, .go, .go, .go, .go, .drain, .go, .go, .dispatch 1, .main, .main, .go, .go]

/-- **C121**, the following is false: ids of sources which don't exist anymore aren't passed to `g_source_remove`. -/
theorem C121_critical_refuted : ∃ s, Reach Stored s ∧ Event.critical 1 ∈ s.log :=
  ⟨_, reach_exec_stored .new late (by decide +kernel) (s' := { new with nextSource := 2, nextId := 1, log := [.added 0, .destroy 0, .critical 1] })
    (by decide +kernel), by simp⟩

/-- The source is dispatched after something has been added -/
def wrong : List Act := [.add, .go, .go, .go, .go, .dispatch 1, .main, .main]

/-- **C121**, the following is false even if sources aren't dispatched until their ids are stored: whatever is pending is going to be released
by the main loop. -/
theorem C121_pending_refuted : ∃ s, Reach Stored s ∧ s.owner = .ready ∧ s.main = .away ∧ s.items ≠ [] ∧ s.live = [] :=
  ⟨_, reach_exec_stored .new wrong (by decide +kernel) (s' := { new with items := [0], nextSource := 2, nextId := 1, log := [.added 0] })
    (by decide +kernel), rfl, rfl, by simp, rfl⟩

/-! Something happens: both threads use the pool at the same time, the last reference is dropped by the main thread, the item
is destroyed there. -/

example : legalStored new [.add, .go, .go, .go, .go, .add, .dispatch 1, .go, .unref, .main, .main] = true := by decide +kernel

example : exec new [.add, .go, .go, .go, .go, .add, .dispatch 1, .go, .unref, .main, .main] =
    .ok { new with alive := false, refs := 0, owned := 0, nextSource := 2, nextId := 2,
                   log := [.added 0, .added 1, .destroy 0, .destroy 1, .freed] } := by decide +kernel

/-! The pool is drained while its source is being dispatched, and more is added: there are two sources. -/

example : legalStored new [.add, .go, .go, .go, .go, .dispatch 1, .drain, .go, .go, .go, .go, .add, .go, .go, .go, .go, .main, .main, .add, .go, .go, .go, .go] = true := by
  decide +kernel

example : exec new [.add, .go, .go, .go, .go, .dispatch 1, .drain, .go, .go, .go, .go, .add, .go, .go, .go, .go, .main, .main, .add, .go, .go, .go, .go] =
    .ok { new with refs := 3, idle := 3, live := [2, 3], items := [1, 2], nextSource := 4, nextId := 3,
                   log := [.added 0, .destroy 0, .added 1, .added 2] } := by decide +kernel

end Verif.PoolThreads
