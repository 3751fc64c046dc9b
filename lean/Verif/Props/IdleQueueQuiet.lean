import Verif.Proof.IdleQueueQuiet

/-!
# The idle queue if callbacks do nothing to it (C64-C66)

What the functions do, from the beginning to the end, as long as the callbacks just return (the number of them being that of the callbacks which the items have got). See
Spec/IdleQueueQuiet.lean.
-/

namespace Verif.Idle
open Verif.C

/-- **C66** In each iteration of the main loop all the items are run and destroyed, one after another in the order of addition. Nothing is left then, neither the items nor the source. That's
what happens in recursive main loops too. -/
theorem C66_iteration {s : State} (h : Reach s) {src : Nat} (ha : Allowed s (.dispatch src)) :
    ∃ s', exec s (.dispatch src :: List.replicate (callbacks (s.items.map Item.entry)) .ret) = .ok s' ∧
      s'.log = s.log ++ iteration (begins s.log).length (s.items.map Item.entry) ∧ s'.items = [] ∧ s'.live = [] ∧ s'.stack = s.stack ∧ s'.refs = s.refs := by
  have hi := reach_inv h
  have hal : s.alive = true := by
    cases e : s.alive with
    | true => rfl
    | false =>
      have := (hi.dead e).2.1
      have h1 := ha.1
      rw [hi.liveEq, this] at h1
      cases h1
  obtain ⟨s', q, h1, h2, h3, h4, h5, h6, h7⟩ := runLoop_quiet (d := s.nextRun) (src := src) (b := s.nextId)
    (s := { s with items := markAll s.items, nextRun := s.nextRun + 1, log := s.log ++ [.begin s.nextRun] }) rfl hal markAll_completed
  rw [markAll_entry] at q h1
  have hb : (begins s.log).length = s.nextRun := by rw [hi.hist.begins]; simp
  refine ⟨s', cons_rets (s0 := runLoop { s with items := markAll s.items, nextRun := s.nextRun + 1, log := s.log ++ [.begin s.nextRun] } s.nextRun src s.nextId) ?_ q, ?_, h2, ?_, h3, h7⟩
  · show dispatch s src = _
    unfold dispatch State.access
    rw [if_pos hal, ok_bind]
  · rw [h1, hb, iteration]
    simp
  · rw [h5]
    have h1 := ha.1
    rw [hi.liveEq] at h1
    show s.live.erase src = []
    rw [hi.liveEq]
    cases hs : s.source with
    | none => rfl
    | some x =>
      rw [hs] at h1
      have : src = x := by simpa using h1
      simp [this]

/-- **C64, C65** `gutil_idle_queue_cancel_all` removes and destroys all the items, one after another in the order of addition, without running any of them; and the source. -/
theorem C64_cancellation {s : State} (h : Reach s) (ha : Allowed s .cancelAll) :
    ∃ s', exec s (.cancelAll :: List.replicate (destructors (s.items.map Item.entry)) .ret) = .ok s' ∧
      s'.log = s.log ++ cancellation (adds s.log).length (s.items.map Item.entry) ∧ s'.items = [] ∧ s'.live = [] ∧ s'.stack = s.stack ∧ s'.alive = true ∧ s'.refs = s.refs := by
  have hi := reach_inv h
  have hal : s.alive = true := by
    cases e : s.alive with
    | true => rfl
    | false =>
      have := (hi.dead e).2.2.2
      have ha : 0 < s.refs := ha
      omega
  obtain ⟨s0, s', e, q, h1, h2, h3, h4, h5, h6, h7⟩ := cancelLoop_quiet (b := s.nextId) (final := false)
    (s := { s with items := markAll s.items, log := s.log ++ [.allCalled s.nextId] }) rfl hal hi.liveEq markAll_completed
  rw [markAll_entry] at q h1
  have hb : (adds s.log).length = s.nextId := by rw [hi.hist.adds]; simp
  refine ⟨s', cons_rets (s0 := s0) ?_ q, ?_, h2, h5, h3, h6, h7⟩
  · show (do s.access; cancelAll s false) = _
    unfold State.access
    rw [if_pos hal, ok_bind]
    exact e
  · rw [h1, hb, cancellation]
    simp

/-- **C65** The same happens when the last reference is dropped, and then the queue is gone. -/
theorem C65_last_unref {s : State} (h : Reach s) (hr : s.refs = 1) (hs : s.stack = []) :
    ∃ s', exec s (.unref :: List.replicate (destructors (s.items.map Item.entry)) .ret) = .ok s' ∧
      s'.log = s.log ++ cancellation (adds s.log).length (s.items.map Item.entry) ∧ s'.items = [] ∧ s'.live = [] ∧ s'.stack = [] ∧ s'.alive = false := by
  have hi := reach_inv h
  have hal : s.alive = true := by
    cases e : s.alive with
    | true => rfl
    | false =>
      have := (hi.dead e).2.2.2
      omega
  obtain ⟨s0, s', e, q, h1, h2, h3, h4, h5, h6, h7⟩ := cancelLoop_quiet (b := s.nextId) (final := true)
    (s := { s with refs := 0, items := markAll s.items, log := s.log ++ [.allCalled s.nextId] }) rfl hal hi.liveEq markAll_completed
  rw [markAll_entry] at q h1
  have hb : (adds s.log).length = s.nextId := by rw [hi.hist.adds]; simp
  refine ⟨s', cons_rets (s0 := s0) ?_ q, ?_, h2, h5, h3.trans hs, h6⟩
  · show (do s.access; unref s) = _
    unfold State.access unref
    rw [if_pos hal, ok_bind, if_pos hr]
    exact e
  · rw [h1, hb, cancellation]
    simp

/-- Items with both callbacks, with one of them and with none, another item having been run before. -/
example : ∃ s, Reach s ∧ Allowed s (.dispatch 2) ∧ Allowed s .cancelAll ∧ s.refs = 1 ∧ s.stack = [] ∧ s.items.map Item.entry = [(1, true, true), (2, false, true), (3, false, false), (4, true, false)] ∧
    iteration (begins s.log).length (s.items.map Item.entry) = [.begin 1, .run 1 1, .destroy 1, .destroy 2, .run 1 4, .ended 1] ∧ callbacks (s.items.map Item.entry) = 4 ∧
    cancellation (adds s.log).length (s.items.map Item.entry) = [.allCalled 5, .cancel 1, .destroy 1, .cancel 2, .destroy 2, .cancel 3, .cancel 4, .allDone 5] := by
  refine ⟨_, reach_exec (acts := [.add 1 true false, .dispatch 1, .ret, .add 1 true true, .add 2 false true, .add 2 false false, .add 3 true false]) .new (by decide +kernel) rfl, ?_⟩
  decide +kernel

end Verif.Idle
