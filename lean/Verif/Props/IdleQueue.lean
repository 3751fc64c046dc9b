import Verif.Proof.IdleQueueInv

/-!
# Properties of the idle queue (C64-C69)

`Reach s`: the state `s` can be reached by a client following the rules (`Allowed`), which may call any function
from any callback, and run the main loop there too. `s.log` is the history. The items are numbered in the order in
which they have been added.
-/

namespace Verif.Idle
open Verif.C

theorem reach_inv {s : State} (h : Reach s) : Inv s := by
  induction h with
  | new => exact inv_new
  | step _ ha e ih =>
    obtain ⟨s', e', hs'⟩ := inv_step ih ha
    rw [e] at e'
    injection e' with e'
    rw [e']
    exact hs'

theorem reach_exec {acts : List Act} : ∀ {s s' : State}, Reach s → legal s acts = true → exec s acts = .ok s' → Reach s' := by
  induction acts with
  | nil =>
    intro s s' h _ e
    injection e with e
    rw [← e]
    exact h
  | cons a t ih =>
    intro s s' h hl e
    unfold legal at hl
    unfold exec at e
    split at hl
    · rename_i ha
      split at e
      · rename_i s1 hs
        rw [hs] at hl
        exact ih (h.step ha hs) hl e
      · cases e
    · cases hl

/-- Three items, the first of which adds another one and cancels the third one from its callback -/
def sample : List Act :=
  [.add 1 true true, .add 2 true false, .add 3 true true, .dispatch 1, .add 4 true true, .cancelTag 3, .ret, .ret, .ret, .ret]

def sampleLog : List Event :=
  [.added 0 true true, .added 1 true false, .added 2 true true, .begin 0, .run 0 0, .added 3 true true,
   .cancel 2, .destroy 2, .destroy 0, .run 0 1, .ended 0]

theorem sample_reach : ∃ s, Reach s ∧ s.log = sampleLog ∧ s.stack = [] ∧ s.live = [1] ∧ s.items.map Item.id = [3] := by
  refine ⟨_, reach_exec (acts := sample) .new (by decide +kernel) (s' := ⟨true, 1, some 1, [⟨3, 4, true, true, false⟩], some 3, [1], 2, 4, 1, [],
    sampleLog⟩) (by decide +kernel), rfl, rfl, rfl, rfl⟩

/-! ## C64 -/

/-- The items are numbered in the order of addition, and run in the same order, each one at most once. -/
theorem C64_order {s : State} (h : Reach s) :
    adds s.log = List.range s.nextId ∧ (runs s.log).Pairwise (· < ·) :=
  ⟨(reach_inv h).hist.adds, (reach_inv h).hist.runsOrd⟩

/-- Only those which have been added are run. -/
theorem C64_added {s : State} (h : Reach s) {d id : Nat} {pre : List Event} (hr : At s.log pre (.run d id)) :
    id ∈ adds pre := by
  obtain ⟨⟨p, ⟨q, hq⟩, hp⟩, _⟩ := (reach_inv h).hist.trace _ _ hr
  rw [hq, adds_append]
  simp [hp]

/-- An item that has been cancelled is never run (and the other way around). -/
theorem C64_cancelled {s : State} (h : Reach s) {id : Nat} (hc : .cancel id ∈ s.log) (d : Nat) : .run d id ∉ s.log :=
  fun hr => ((reach_inv h).hist.cancels id hc).1 (mem_runs.2 ⟨d, hr⟩)

/-- Nothing that has been added before `gutil_idle_queue_cancel_all` was called is run after it has returned. -/
theorem C64_cancel_all {s : State} (h : Reach s) {b d id : Nat} {pre p : List Event}
    (hr : At s.log pre (.run d id)) (hd : .allDone b ∈ pre) (hc : At pre p (.allCalled b)) : id ∉ adds p := by
  have hb := ((reach_inv h).hist.trace _ _ hr).2 b hd
  have hc' : At s.log p (.allCalled b) := by
    obtain ⟨q, hq⟩ := hr
    rw [hq]
    exact hc.append _
  have ha : adds p = List.range b := (reach_inv h).hist.trace _ _ hc'
  rw [ha]
  simp
  exact hb

/-- An item which is neither in the queue, nor has been run, nor has been cancelled doesn't exist. -/
theorem C64_not_lost {s : State} (h : Reach s) {id : Nat} {x : Bool} (ha : .added id true x ∈ s.log) :
    id ∈ s.items.map Item.id ∨ id ∈ runs s.log ∨ .cancel id ∈ s.log := by
  rcases (reach_inv h).hist.done id x ha with ⟨i, hi, e⟩ | hh
  · exact .inl (e ▸ List.mem_map_of_mem hi)
  · exact .inr hh

example : ∃ s, Reach s ∧ runs s.log = [0, 1] ∧ .cancel 2 ∈ s.log := by
  obtain ⟨s, h, e, _⟩ := sample_reach
  exact ⟨s, h, by rw [e]; rfl, by rw [e]; decide⟩

/-! ## C65 -/

/-- At any moment, even inside of a callback -/
theorem C65_at_most_once {s : State} (h : Reach s) (id : Nat) : s.log.count (.destroy id) ≤ 1 := by
  have hh := (reach_inv h).hist
  by_cases h1 : ∃ r, Event.added id r true ∈ s.log
  · by_cases h2 : (∃ i ∈ s.items, i.id = id) ∨ id ∈ pend s.stack
    · rw [hh.destr0 id h2]; omega
    · obtain ⟨r, hr⟩ := h1
      rw [hh.destr1 id r hr (fun i hi e => h2 (.inl ⟨i, hi, e⟩)) (fun hp => h2 (.inr hp))]
      omega
  · rw [hh.destrN id (fun r hr => h1 ⟨r, hr⟩)]; omega

/-- Outside of callbacks, `destroy` of each item which is not in the queue anymore has been called exactly once,
`destroy` of those which are there hasn't. -/
theorem C65_exactly_once {s : State} (h : Reach s) (hs : s.stack = []) {id : Nat} {r : Bool}
    (ha : .added id r true ∈ s.log) : s.log.count (.destroy id) = if id ∈ s.items.map Item.id then 0 else 1 := by
  have hh := (reach_inv h).hist
  split
  · rename_i hi
    obtain ⟨i, hi, e⟩ := List.mem_map.1 hi
    exact hh.destr0 id (.inl ⟨i, hi, e⟩)
  · rename_i hi
    exact hh.destr1 id r ha (fun i hi' e => hi (e ▸ List.mem_map_of_mem hi')) (by rw [hs]; simp [pend])

/-- It's only called for the items which have it, and after `run` (if there is one) or when the item is cancelled. -/
theorem C65_after_run {s : State} (h : Reach s) {id : Nat} {pre : List Event} (hd : At s.log pre (.destroy id)) :
    (∃ r, .added id r true ∈ pre) ∧ (.added id true true ∈ pre → id ∈ runs pre ∨ .cancel id ∈ pre) :=
  (reach_inv h).hist.trace _ _ hd

/-- When the queue is deallocated, everything is released. -/
theorem C65_freed {s : State} (h : Reach s) (hf : s.alive = false) {id : Nat} {r : Bool}
    (ha : .added id r true ∈ s.log) : s.log.count (.destroy id) = 1 := by
  have hd := (reach_inv h).dead hf
  rw [C65_exactly_once h hd.2.2.1 ha, hd.1]
  rfl

example : ∃ s, Reach s ∧ s.log.count (.destroy 0) = 1 ∧ s.log.count (.destroy 2) = 1 ∧ s.log.count (.destroy 3) = 0 := by
  obtain ⟨s, h, e, _⟩ := sample_reach
  exact ⟨s, h, by rw [e]; decide, by rw [e]; decide, by rw [e]; decide⟩

/-- A queue being deallocated with something in it -/
example : ∃ s, Reach s ∧ s.alive = false ∧ s.log.count (.destroy 1) = 1 := by
  refine ⟨_, reach_exec (acts := [.add 1 true true, .add 1 true true, .unref, .ret, .ret]) .new (by decide +kernel)
    (s' := ⟨false, 0, none, [], none, [], 2, 2, 0, [], [.added 0 true true, .added 1 true true, .allCalled 2,
      .cancel 0, .destroy 0, .cancel 1, .destroy 1, .allDone 2]⟩) (by decide +kernel), rfl, by decide⟩

/-! ## C66 -/

/-- What's being run by an invocation of the idle callback has been added before the invocation. The invocations
have different numbers. -/
theorem C66_next_iteration {s : State} (h : Reach s) {d id : Nat} {pre : List Event} (hr : At s.log pre (.run d id)) :
    (∃ p, At pre p (.begin d) ∧ id ∈ adds p) ∧ (begins s.log).Nodup := by
  refine ⟨((reach_inv h).hist.trace _ _ hr).1, ?_⟩
  rw [(reach_inv h).hist.begins]
  exact List.nodup_range

/-- When it returns, everything that had been added before the invocation has been run or cancelled. -/
theorem C66_all_of_them {s : State} (h : Reach s) {d : Nat} {pre : List Event} (hr : At s.log pre (.ended d)) :
    ∃ p, At pre p (.begin d) ∧ ∀ id x, .added id true x ∈ p → id ∈ runs pre ∨ .cancel id ∈ pre :=
  (reach_inv h).hist.trace _ _ hr

/-- The one that has been added by the callback (item 3) isn't run. -/
example : ∃ s, Reach s ∧ (∃ pre, At s.log pre (.run 0 1) ∧ .added 3 true true ∈ pre) ∧ (∃ pre, At s.log pre (.ended 0)) ∧ 3 ∉ runs s.log := by
  obtain ⟨s, h, e, _⟩ := sample_reach
  refine ⟨s, h, ⟨sampleLog.take 9, ?_, by decide⟩, ⟨sampleLog.take 10, ?_⟩, ?_⟩
  · rw [e]; exact ⟨[.ended 0], rfl⟩
  · rw [e]; exact ⟨[], rfl⟩
  · rw [e]; decide

/-! ## C67 -/

/-- If there is something in the queue then there is exactly one source, and the queue knows it. -/
theorem C67_scheduled {s : State} (h : Reach s) (hi : s.items ≠ []) : ∃ src, s.live = [src] ∧ s.source = some src := by
  have hs := (reach_inv h).sched hi
  have hl := (reach_inv h).liveEq
  cases e : s.source with
  | none => exact absurd e hs
  | some src => exact ⟨src, by rw [hl, e]; rfl, rfl⟩

/-- If the queue is empty, and not being run, there's none. -/
theorem C67_not_scheduled {s : State} (h : Reach s) (hs : s.stack = []) (hi : s.items = []) : s.live = [] ∧ s.source = none := by
  have he := (reach_inv h).empt hi
  rw [hs] at he
  have he' : s.source = none := he
  have hl := (reach_inv h).liveEq
  exact ⟨by rw [hl, he']; rfl, he'⟩

/-- There's never more than one, and none after the queue has been deallocated. -/
theorem C67_at_most_one {s : State} (h : Reach s) : s.live.length ≤ 1 ∧ (s.alive = false → s.live = []) := by
  have hl := (reach_inv h).liveEq
  refine ⟨?_, ?_⟩
  · rw [hl]; cases s.source <;> simp
  · intro ha
    rw [hl, ((reach_inv h).dead ha).2.1]
    rfl

example : ∃ s, Reach s ∧ s.stack = [] ∧ s.items ≠ [] ∧ s.live = [1] := by
  obtain ⟨s, h, _, e1, e2, e3⟩ := sample_reach
  exact ⟨s, h, e1, fun hc => (by rw [hc] at e3; cases e3), e2⟩

/-- Everything is cancelled by a callback, then something is added: a new source. Both exist for a while if one
counts the one being dispatched, which has been removed. -/
example : ∃ s, Reach s ∧ s.stack = [] ∧ s.items.map Item.id = [2] ∧ s.live = [2] := by
  refine ⟨_, reach_exec (acts := [.add 1 true false, .add 1 true false, .dispatch 1, .cancelAll, .add 1 true false, .ret]) .new
    (by decide +kernel) (s' := ⟨true, 1, some 2, [⟨2, 1, true, false, false⟩], some 2, [2], 3, 3, 1, [],
    [.added 0 true false, .added 1 true false, .begin 0, .run 0 0, .allCalled 2, .cancel 1, .allDone 2, .added 2 true false, .ended 0]⟩)
    (by decide +kernel), rfl, rfl, rfl⟩

/-! ## C68 -/

/-- The new item goes to the end of the queue. -/
theorem C68_add {s : State} (h : Reach s) (hr : 0 < s.refs) (tag : Nat) (r x : Bool) :
    ∃ s', step s (.add tag r x) = .ok s' ∧ s'.items = s.items ++ [⟨s.nextId, tag, r, x, false⟩] ∧
      s'.log = s.log ++ [.added s.nextId r x] := by
  have hi := reach_inv h
  unfold step
  dsimp only
  rw [access_ok (hi.alive' hr), ok_bind, add, append_ok hi.lastEq hi.sorted, ok_bind]
  refine ⟨_, rfl, ?_, ?_⟩
  · unfold schedule; split <;> rfl
  · unfold schedule; split <;> rfl

theorem C68_contains (items : List Item) (tag : Nat) : containsTag items tag = true ↔ ∃ i ∈ items, i.tag = tag := by
  induction items with
  | nil => simp [containsTag]
  | cons i t ih =>
    rw [containsTag]
    split
    · simp_all
    · simp_all

/-- `gutil_idle_queue_cancel_tag` removes exactly the first one with this tag (and calls its `destroy`). It returns
`TRUE` if there was one. -/
theorem C68_cancel {s : State} (h : Reach s) (hr : 0 < s.refs) (tag : Nat) :
    ∃ s' b, cancelTag s tag = .ok (s', b) ∧ (b = true ↔ ∃ i ∈ s.items, i.tag = tag) ∧ (b = false → s' = s) ∧
      (b = true → ∃ p x q, s.items = p ++ x :: q ∧ x.tag = tag ∧ (∀ y ∈ p, y.tag ≠ tag) ∧ s'.items = p ++ q ∧
        s'.log = s.log ++ .cancel x.id :: if x.destroy then [.destroy x.id] else []) := by
  have hi := reach_inv h
  obtain ⟨s', b, e, _⟩ := inv_cancelTag (tag := tag) hi (hi.alive' hr)
  refine ⟨s', b, e, ?_⟩
  unfold cancelTag at e
  split at e
  · rename_i hn
    injection e with e
    injection e with e1 e2
    subst e1 e2
    simp [hn]
  · rename_i i t hc
    split at e
    · rename_i ht
      have key : ∀ s1, itemDestroy { s with items := t, last := lastOf t s.last } i (.tagFirst i) clearIfEmpty = .ok s1 →
          s1.items = t ∧ s1.log = s.log ++ .cancel i.id :: if i.destroy then [.destroy i.id] else [] := by
        intro s1 h1
        unfold itemDestroy at h1
        split at h1
        · rename_i hd
          injection h1 with h1
          subst h1
          simp [hd]
        · rename_i hd
          rw [if_neg hd]
          unfold clearIfEmpty State.clearSource at h1
          dsimp only at h1
          split at h1
          · split at h1
            · injection h1 with h1
              subst h1
              simp
            · split at h1
              · injection h1 with h1
                subst h1
                simp
              · cases h1
          · injection h1 with h1
            subst h1
            simp
      cases h1 : itemDestroy { s with items := t, last := lastOf t s.last } i (.tagFirst i) clearIfEmpty with
      | error z => rw [h1, error_bind] at e; cases e
      | ok s1 =>
        rw [h1, ok_bind] at e
        injection e with e
        injection e with e1 e2
        subst e1 e2
        obtain ⟨k1, k2⟩ := key _ h1
        refine ⟨by simp [hc, ht], by simp, fun _ => ⟨[], i, t, hc, ht, by simp, k1, k2⟩⟩
    · rename_i ht
      split at e
      · rename_i x t' last' hr
        obtain ⟨p, q, e1, e2, e3, e4, _⟩ := removeTag_some hr
        have hx : x ∈ s.items := by rw [hc, e1]; simp
        have key : ∀ s1, itemDestroy { s with items := i :: t', last := last' } x (.tagOther x) .ok = .ok s1 →
            s1.items = i :: t' ∧ s1.log = s.log ++ .cancel x.id :: if x.destroy then [.destroy x.id] else [] := by
          intro s1 h1
          unfold itemDestroy at h1
          split at h1
          · rename_i hd
            injection h1 with h1
            subst h1
            simp [hd]
          · rename_i hd
            injection h1 with h1
            subst h1
            simp [hd]
        cases h1 : itemDestroy { s with items := i :: t', last := last' } x (.tagOther x) .ok with
        | error z => rw [h1, error_bind] at e; cases e
        | ok s1 =>
          rw [h1, ok_bind] at e
          injection e with e
          injection e with e5 e6
          subst e5 e6
          obtain ⟨k1, k2⟩ := key _ h1
          refine ⟨by simp only [true_iff]; exact ⟨x, hx, e3⟩, by simp, fun _ => ⟨i :: p, x, q, by rw [hc, e1]; rfl, e3, ?_, by rw [k1, e2]; rfl, k2⟩⟩
          intro y hy
          rw [List.mem_cons] at hy
          rcases hy with rfl | hy
          · exact ht
          · exact e4 y hy
      · rename_i hr
        injection e with e
        injection e with e1 e2
        subst e1 e2
        have := removeTag_none hr
        refine ⟨?_, by simp, by simp⟩
        simp only [Bool.false_eq_true, false_iff, hc]
        rintro ⟨y, hy, e⟩
        rw [List.mem_cons] at hy
        rcases hy with rfl | hy
        · exact ht e
        · exact this y hy e

example : ∃ s, Reach s ∧ 0 < s.refs ∧ s.items.map Item.tag = [1, 2, 3, 2] := by
  refine ⟨_, reach_exec (acts := [.add 1 true false, .add 2 true false, .add 3 true false, .add 2 true false]) .new
    (by decide +kernel) (s' := ⟨true, 1, some 1, [⟨0, 1, true, false, false⟩, ⟨1, 2, true, false, false⟩, ⟨2, 3, true, false, false⟩,
      ⟨3, 2, true, false, false⟩], some 3, [1], 2, 4, 0, [],
    [.added 0 true false, .added 1 true false, .added 2 true false, .added 3 true false]⟩)
    (by decide +kernel), by decide, rfl⟩

/-! ## C69 -/

/-- No undefined behaviour as long as the rules (`Allowed`) are followed. What's missing from the full property is
dropping the last reference inside of a callback. -/
theorem C69_safe_partial {s : State} (h : Reach s) {a : Act} (ha : Allowed s a) : ∃ s', step s a = .ok s' := by
  obtain ⟨s', e, _⟩ := inv_step (reach_inv h) ha
  exact ⟨s', e⟩

/-- The last reference being dropped by a callback of the queue: the queue is used after it has been deallocated. -/
theorem C69_unref_in_callback_refuted :
    exec new [.add 1 true false, .dispatch 1, .unref, .ret] = .error .useAfterFree := by decide +kernel

/-- The same for the `destroy` callback called by `gutil_idle_queue_cancel_tag`. -/
theorem C69_unref_in_cancel_refuted :
    exec new [.add 1 true true, .cancelTag 1, .unref, .ret] = .error .useAfterFree := by decide +kernel

/-- An item added by the `destroy` callback when the queue is being deallocated leaves a source behind. -/
theorem C69_add_when_deallocating_refuted :
    exec new [.add 1 true true, .unref, .add 1 true false, .ret, .dispatch 1] = .error .useAfterFree := by decide +kernel

/-- In general: the idle callback doesn't survive it. -/
theorem C69_unref_in_callback_always {s : State} (h : Reach s) {d src b : Nat} {i : Item} {rest : List Frame}
    (hs : s.stack = .run d src b i :: rest) (hi : i.destroy = false) (hr : s.refs = 1) (hd : ∀ x ∈ s.items, x.destroy = false) :
    ∃ s', step s .unref = .ok s' ∧ step s' .ret = .error .useAfterFree := by
  have hv := reach_inv h
  have ha := hv.alive' (by omega)
  have hm : ∀ x ∈ markAll s.items, x.completed = true ∧ x.destroy = false := by
    intro x hx
    obtain ⟨y, hy, rfl⟩ := markAll_mem hx
    exact ⟨rfl, hd y hy⟩
  have key : ∀ (l : List Item) (last : Option Nat), (∀ x ∈ l, x.completed = true ∧ x.destroy = false) →
      ∃ last' gone, cancelScan l last = ([], last', gone, none) := by
    intro l
    induction l with
    | nil => intro last _; exact ⟨last, [], rfl⟩
    | cons x t ih =>
      intro last hx
      have h1 := hx x (by simp)
      obtain ⟨l', g, e⟩ := ih (lastOf t last) (fun y hy => hx y (by simp [hy]))
      refine ⟨l', x :: g, ?_⟩
      rw [cancelScan, if_pos h1.1, if_neg (by simp [h1.2]), e]
  obtain ⟨last', gone, e⟩ := key _ s.last hm
  have hex : ∃ s', step s .unref = .ok s' ∧ s'.stack = s.stack ∧ s'.alive = false := by
    unfold step
    dsimp only
    rw [access_ok ha, ok_bind, unref, if_pos hr, cancelAll, cancelLoop]
    dsimp only
    rw [e]
    dsimp only
    unfold cancelEnd clearIfEmpty State.clearSource
    simp only [if_true]
    cases hsrc : s.source with
    | none => exact ⟨_, rfl, rfl, rfl⟩
    | some y =>
      have hl : s.live = [y] := by have := hv.liveEq; rw [this, hsrc]; rfl
      dsimp only
      rw [hl, if_pos (by simp)]
      exact ⟨_, rfl, rfl, rfl⟩
  obtain ⟨s', h1, h2, h3⟩ := hex
  refine ⟨s', h1, ?_⟩
  unfold step
  dsimp only
  unfold ret
  rw [h2, hs]
  dsimp only
  unfold afterRun
  rw [if_neg (by simp [hi])]
  unfold State.access
  dsimp only
  rw [h3]
  rfl

/-- The same thing with a reference being held -/
example : legal new [.add 1 true false, .ref, .dispatch 1, .unref, .ret, .unref] = true := by decide +kernel

end Verif.Idle
