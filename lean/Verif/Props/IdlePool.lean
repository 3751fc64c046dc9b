import Verif.Proof.IdlePool

/-!
# Properties of the idle pool (C70-C72, C91)

`Reach P s`: the state `s` can be reached by a client following the rules (`Allowed`), which may call any function
from any destroy function, and run the main loop there too; `P` is an additional rule. `s.log` is the history.
The items are numbered in the order in which they have been added.
-/

namespace Verif.Pool
open Verif.C

/-- No more rules -/
def any (_ : State) (_ : Act) : Prop := True

/-- The main loop always invokes the idle callback on the thread which has created the pool. -/
def rightThread (_ : State) (a : Act) : Prop := ∀ src, a ≠ .dispatch src false

/-- The pool isn't being drained by a destroy function which it has called, unless it was the last one to be called. -/
def orderly (s : State) (a : Act) : Prop :=
  (a = .drain ∨ a = .destroy ∨ ∃ src right, a = .dispatch src right) → ∀ f ∈ s.stack, f.rest = []

theorem any_inv {P : State → Act → Prop} {s : State} (h : Reach P s) : Inv False 0 s := reach_inv (fun h => h.elim) h

theorem reach_exec {P : State → Act → Prop} {acts : List Act} (hP : ∀ s a, a ∈ acts → P s a) : ∀ {s s' : State}, Reach P s →
    legal s acts = true → exec s acts = .ok s' → Reach P s' := by
  induction acts with
  | nil =>
    intro s s' h _ e
    injection e with e
    rw [← e]
    exact h
  | cons a t ih =>
    intro s s' h hl e
    unfold legal at hl
    unfold exec at e
    split at hl
    · rename_i ha
      split at e
      · rename_i s1 hs
        rw [hs] at hl
        exact ih (fun s a h => hP s a (List.mem_cons_of_mem _ h)) (h.step ha (hP _ _ (List.mem_cons_self ..)) hs) hl e
      · cases e
    · cases hl

/-- Two items, and another one which is added by the destroy function of the first one. The pool is drained, one more item is added
and the pool is destroyed by the main loop after the last reference has been dropped by the client. -/
def sample : List Act :=
  [.add, .add, .dispatch 1 true, .add, .ret, .ret, .ret, .add, .unref, .dispatch 3 true, .ret]

def sampleLog : List Event :=
  [.added 0, .added 1, .destroy 0, .added 2, .destroy 1, .destroy 2, .drained 0, .added 3, .destroy 3, .drained 0, .drained 0]

theorem sample_reach : ∃ s, Reach rightThread s ∧ s.log = sampleLog ∧ s.alive = false := by
  refine ⟨_, reach_exec (acts := sample) (fun s a h src e => ?_) (.new false [1, 2]) (by decide +kernel) (s' :=
    ⟨false, 0, 0, none, [], none, false, .null, [], false, [1, 2], 4, 4, [], sampleLog⟩) (by decide +kernel), rfl, rfl⟩
  rw [e] at h
  simp [sample] at h

theorem sample_any : ∃ s, Reach any s ∧ s.log = sampleLog ∧ s.alive = false :=
  ⟨_, reach_exec (acts := sample) (fun _ _ _ => trivial) (.new false [1, 2]) (by decide +kernel) (s' :=
    ⟨false, 0, 0, none, [], none, false, .null, [], false, [1, 2], 4, 4, [], sampleLog⟩) (by decide +kernel), rfl, rfl⟩

/-! ## C70 -/

/-- No destroy function is ever called twice, or for something which hasn't been added. -/
theorem C70_once {s : State} (h : Reach any s) :
    (adds s.log).Nodup ∧ (destroys s.log).Nodup ∧ ∀ pre id, At s.log pre (.destroy id) → id ∈ adds pre := by
  have h1 := (any_inv h).hist
  refine ⟨?_, (List.nodup_append.1 h1.nodup).1, fun pre id ha => h1.trace _ _ ha⟩
  rw [h1.adds]
  exact List.nodup_range

example : ∃ s, Reach any s ∧ destroys s.log = [0, 1, 2, 3] := by
  obtain ⟨s, h, e, _⟩ := sample_any
  exact ⟨s, h, by rw [e]; rfl⟩

/-- Each item is either waiting to be destroyed or has been destroyed (not both). -/
theorem C70_accounted {s : State} (h : Reach any s) (id : Nat) (hid : id ∈ adds s.log) :
    (destroys s.log).count id + ((s.stack.flatMap Frame.rest ++ s.items).map Item.id).count id = 1 := by
  have h1 := (any_inv h).hist
  have h2 : id ∈ destroys s.log ++ (rests s.stack ++ s.items).map Item.id := by
    rw [List.mem_append, ← h1.mem, ← List.mem_range, ← h1.adds]
    exact hid
  have h3 := h1.nodup.count (a := id)
  rw [if_pos h2, List.count_append] at h3
  exact h3

example : ∃ s, Reach any s ∧ 3 ∈ adds s.log := by
  obtain ⟨s, h, e, _⟩ := sample_any
  exact ⟨s, h, by rw [e]; decide⟩

/-- When the pool has been drained (not from one of its destroy functions) everything that has been added to it before
that, has been destroyed exactly once. -/
theorem C70_drained {s : State} (h : Reach any s) (pre : List Event) (hd : At s.log pre (.drained 0)) (id : Nat) (hid : id ∈ adds pre) :
    (destroys pre).count id = 1 := by
  have h1 := (any_inv h).hist
  have h2 : id ∈ destroys pre := h1.trace _ _ hd rfl id hid
  have h3 : (destroys pre).Nodup := by
    obtain ⟨post, e⟩ := hd
    have := (List.nodup_append.1 h1.nodup).1
    rw [e] at this
    unfold destroys at this ⊢
    rw [List.filterMap_append] at this
    exact (List.nodup_append.1 this).1
  rw [h3.count, if_pos h2]

example : ∃ s pre, Reach any s ∧ At s.log pre (.drained 0) ∧ 2 ∈ adds pre := by
  obtain ⟨s, h, e, _⟩ := sample_any
  exact ⟨s, sampleLog.take 6, h, ⟨sampleLog.drop 7, by rw [e]; rfl⟩, by decide⟩

/-- Right after `gutil_idle_pool_drain` or `gutil_idle_pool_destroy` has returned to a client which is not in one of its
destroy functions, or the main loop is done with the source, or the last destroy function called by those has
returned, nothing is left in the pool. -/
theorem C70_empty {s s' : State} {a : Act} (h : Reach any s) (ha : Allowed s a) (hs : step s a = .ok s') (he : s'.stack = [])
    (hd : a = .drain ∨ a = .destroy ∨ (∃ src, a = .dispatch src true) ∨ a = .ret) :
    s'.items = [] ∧ ∀ id ∈ adds s'.log, (destroys s'.log).count id = 1 := by
  have h0 := any_inv h
  have hi : s'.items = [] := by
    rcases hd with rfl | rfl | ⟨src, rfl⟩ | rfl
    · obtain ⟨s2, e, _, h2⟩ := inv_drain (h0.push (k := .ret) (fun h => h.elim) (.inl rfl) ha)
      have hs : drain s .ret = .ok s' := hs
      rw [e] at hs
      cases hs
      exact h2
    · obtain ⟨s2, e, _, h2⟩ := inv_drain (h0.push (k := .destroy) (fun h => h.elim) (.inr rfl) ha)
      have hs : drain s .destroy = .ok s' := hs
      rw [e] at hs
      cases hs
      exact h2
    · obtain ⟨h1, h2⟩ : src ∈ s.live ∧ ∀ f ∈ s.stack, f.cont ≠ .idle src := ha
      have hc : src ∉ calls s.stack := by
        rw [mem_calls]
        rintro ⟨f, hf, hz⟩
        exact h2 f hf hz
      obtain ⟨s2, e, _, h4⟩ := inv_drain (s := { s with idle := none }) (h0.pushIdle (fun h => h.elim) h1 hc)
      obtain ⟨_, _, hs⟩ := bind_ok hs
      rw [if_pos rfl, e] at hs
      cases hs
      exact h4
    · obtain ⟨s2, e, h1, h2⟩ := inv_ret h0 ha
      have hs : ret s = .ok s' := hs
      rw [e] at hs
      cases hs
      rcases h2 with h2 | ⟨_, _, h3⟩
      · exact h2
      · exact absurd he h3
  refine ⟨hi, fun id hid => ?_⟩
  have h1 : Reach any s' := h.step ha trivial hs
  have := C70_accounted h1 id hid
  rw [he, hi] at this
  simpa using this

example : ∃ s s', Reach any s ∧ Allowed s .ret ∧ step s .ret = .ok s' ∧ s'.stack = [] ∧ adds s'.log = [0, 1] := by
  refine ⟨⟨true, 2, 1, none, [], none, false, .null, [1], false, [], 2, 2, [⟨[], .idle 1⟩], [.added 0, .added 1, .destroy 0, .destroy 1]⟩, _,
    reach_exec (acts := [.add, .add, .dispatch 1 true, .ret]) (fun _ _ _ => trivial) (.new false []) (by decide +kernel) (by decide +kernel),
    by decide, rfl, rfl, rfl⟩

/-- Everything that has been added to the pool has been destroyed exactly once by the time when the pool is deallocated. -/
theorem C70_deallocated {s : State} (h : Reach any s) (hd : s.alive = false) (id : Nat) (hid : id ∈ adds s.log) :
    (destroys s.log).count id = 1 := by
  have h1 := (any_inv h).dead hd
  have := C70_accounted h id hid
  rw [h1.1, h1.2.1] at this
  simpa using this

example : ∃ s, Reach any s ∧ s.alive = false ∧ 3 ∈ adds s.log := by
  obtain ⟨s, h, e, h1⟩ := sample_any
  exact ⟨s, h, h1, by rw [e]; decide⟩

/-- Unless the pool is drained by its own destroy functions (with something left to be destroyed by the
interrupted drain), the items are destroyed in the order of addition. -/
theorem C70_order_partial {s : State} (h : Reach orderly s) : destroys s.log <+: adds s.log := by
  have h1 := (reach_inv (q := True) (fun _ _ _ h => h) h).hist
  rw [h1.adds, ← h1.order trivial]
  exact List.prefix_append _ _

example : ∃ s, Reach orderly s ∧ adds s.log = [0, 1, 2] ∧ destroys s.log = [0, 1] := by
  have h0 : Reach orderly (new false []) := .new false []
  have h1 := h0.step (a := .add) (by decide) (by rintro (h | h | ⟨_, _, h⟩) <;> cases h) rfl
  have h2 := h1.step (a := .add) (by decide) (by rintro (h | h | ⟨_, _, h⟩) <;> cases h) rfl
  have h3 := h2.step (a := .drain) (by decide) (by rintro _ f hf; cases hf) rfl
  have h4 := h3.step (a := .add) (by decide) (by rintro (h | h | ⟨_, _, h⟩) <;> cases h) rfl
  have h5 := h4.step (a := .ret) (by decide) (by rintro (h | h | ⟨_, _, h⟩) <;> cases h) rfl
  exact ⟨_, h5, rfl, rfl⟩

/-- The order is not that of addition in general: if the destroy function of the first item adds something and drains the pool then it's
destroyed before the second item is. -/
theorem C70_order_refuted : ∃ s, Reach any s ∧ adds s.log = [0, 1, 2] ∧ destroys s.log = [0, 2, 1] := by
  have h := reach_exec (P := any) (acts := [.add, .add, .drain, .add, .drain, .ret, .ret]) (fun _ _ _ => trivial) (.new false []) (by decide +kernel)
    (s' := ⟨true, 1, 1, none, [], none, false, .null, [], false, [], 2, 3, [⟨[], .ret⟩],
      [.added 0, .added 1, .destroy 0, .added 2, .destroy 2, .drained 1, .destroy 1]⟩) (by decide +kernel)
  exact ⟨_, h, rfl, rfl⟩

/-- Nothing undefined happens as long as the client follows the rules, one of which is not to add anything to a
pool which is being deallocated. -/
theorem C70_safe_partial {s : State} {a : Act} (h : Reach any s) (ha : Allowed s a) : ∃ s', step s a = .ok s' := by
  obtain ⟨s', e, _⟩ := inv_step (any_inv h) ha (fun h => h.elim)
  exact ⟨s', e⟩

example : ∃ s, Reach any s ∧ Allowed s .add := ⟨_, .new true [], by decide⟩

/-- If a destroy function adds something to the pool which is being deallocated (which is what has invoked that function) then the
pool is deallocated twice. -/
theorem C70_safe_refuted : ∃ s, Reach any s ∧ s.alive = true ∧ s.stack ≠ [] ∧ exec s [.add, .ret, .ret] = .error .doubleFree := by
  have h := reach_exec (P := any) (acts := [.add, .dispatch 1 false, .unref]) (fun _ _ _ => trivial) (.new false []) (by decide +kernel)
    (s' := ⟨true, 0, 0, none, [], none, false, .null, [], false, [], 2, 1, [⟨[], .final⟩], [.added 0, .destroy 0]⟩) (by decide +kernel)
  exact ⟨_, h, rfl, by simp, by decide +kernel⟩

/-! ## C71 -/

/-- If there's something in the pool then there's an idle source attached to the main context, it's the one the pool
knows about, it holds a reference to the pool, and it's not being dispatched already. -/
theorem C71_scheduled_partial {s : State} (h : Reach rightThread s) (hi : s.items ≠ []) :
    ∃ src, s.idle = some src ∧ src ∈ s.live ∧ s.alive = true ∧ 0 < s.refs ∧ Allowed s (.dispatch src true) := by
  have h1 := any_inv h
  have h2 := reach_sched (fun s src h => h src rfl) h hi
  cases hx : s.idle with
  | none => exact absurd hx h2
  | some src =>
    have h3 := h1.idleIn src hx
    have h4 := List.length_pos_of_mem h3.1
    have h5 := h1.refsEq
    refine ⟨src, rfl, h3.1, h1.alive (.inr (by omega)), by omega, h3.1, fun f hf hz => h3.2 ?_⟩
    rw [mem_calls]
    exact ⟨f, hf, hz⟩

example : ∃ s, Reach rightThread s ∧ s.items ≠ [] := by
  have h1 := (Reach.new (P := rightThread) true []).step (a := .add) (by decide) (by intro _ h; cases h) rfl
  exact ⟨_, h1, by simp [schedule, new]⟩

/-- If the source is dispatched by another thread then the items which are left in the pool have no source,
and adding nothing more means that they stay there. -/
theorem C71_scheduled_refuted : ∃ s, Reach any s ∧ s.items ≠ [] ∧ s.live = [] ∧ s.stack = [] := by
  have h := reach_exec (P := any) (acts := [.add, .dispatch 1 false]) (fun _ _ _ => trivial) (.new false []) (by decide +kernel)
    (s' := ⟨true, 1, 1, none, [⟨0, false⟩], some 0, false, .null, [], false, [], 2, 1, [], [.added 0]⟩) (by decide +kernel)
  exact ⟨_, h, by simp, rfl, rfl⟩

/-- There's no source if there's nothing to do, unless the thread has its own main context (see `C91_foreign_refuted`). -/
theorem C71_idle {s : State} (h : Reach any s) (ho : s.own = false) (hs : s.stack = []) (hi : s.items = []) : s.live = [] := by
  have h1 := any_inv h
  have h2 := h1.quiet hs hi
  cases hl : s.live with
  | nil => rfl
  | cons x t =>
    rcases h1.tight ho x (by rw [hl]; simp) with h3 | h3
    · rw [h2] at h3; cases h3
    · rw [hs] at h3; cases h3

example : ∃ s, Reach any s ∧ s.own = false ∧ s.stack = [] ∧ s.items = [] ∧ s.nextSource = 4 := by
  refine ⟨_, reach_exec (acts := sample) (fun _ _ _ => trivial) (.new false [1, 2]) (by decide +kernel) (s' :=
    ⟨false, 0, 0, none, [], none, false, .null, [], false, [1, 2], 4, 4, [], sampleLog⟩) (by decide +kernel), rfl, rfl, rfl, rfl⟩

/-- The pool exists as long as somebody is holding a reference: the client, a source, or an item of the pool itself. -/
theorem C71_alive {s : State} (h : Reach any s) (hs : s.stack = []) :
    s.alive = true ↔ 0 < s.owned ∨ s.live ≠ [] ∨ ∃ i ∈ s.items, i.self = true := by
  have h1 := any_inv h
  have h2 := h1.refsEq
  rw [hs] at h2
  have h3 : 0 < selfs s.items ↔ ∃ i ∈ s.items, i.self = true := List.countP_pos_iff
  rw [← h3, Ne, ← List.length_eq_zero_iff]
  have h4 : selfs (rests []) = 0 := rfl
  constructor
  · intro ha
    have : s.refs ≠ 0 := by
      intro hr
      obtain ⟨f, hf, _⟩ := h1.refs0 ha hr
      rw [hs] at hf
      cases hf
    omega
  · intro hh
    exact h1.alive (.inr (by omega))

example : ∃ s, Reach any s ∧ s.stack = [] ∧ s.alive = false := by
  refine ⟨_, reach_exec (acts := sample) (fun _ _ _ => trivial) (.new false [1, 2]) (by decide +kernel) (s' :=
    ⟨false, 0, 0, none, [], none, false, .null, [], false, [1, 2], 4, 4, [], sampleLog⟩) (by decide +kernel), rfl, rfl⟩

/-! ## C72 -/

/-- The shared pointer points to the pool exactly as long as the pool exists and has references. -/
theorem C72_pointer {s : State} (h : Reach any s) : s.cell = .this ↔ s.shared = true ∧ s.alive = true ∧ 0 < s.refs :=
  (any_inv h).cellOk

/-- The shared pool which has been referenced and which is being deallocated -/
example : ∃ s, Reach any s ∧ s.shared = true ∧ s.cell = .null ∧ s.alive = true := by
  obtain ⟨s0, e0, _⟩ := inv_shared (q := False) (own := false) (foreign := [])
  have h := reach_exec (P := any) (acts := [.add, .ref, .dispatch 1 true, .ret, .add, .dispatch 2 false, .unref]) (fun _ _ _ => trivial)
    (.shared (own := false) (foreign := []) (s := ⟨true, 2, 0, some 1, [⟨0, true⟩], some 0, true, .this, [1], false, [], 2, 1, [], [.added 0]⟩)
      (by decide +kernel)) (by decide +kernel)
    (s' := ⟨true, 0, 0, none, [], none, true, .null, [], false, [], 3, 3, [⟨[], .final⟩],
      [.added 0, .added 1, .destroy 0, .destroy 1, .drained 0, .added 2, .destroy 2]⟩) (by decide +kernel)
  exact ⟨_, h, rfl, rfl, rfl⟩

/-- A shared pool which nobody has referenced is deallocated when the main loop gets to it, and the pointer is cleared. -/
theorem C72_unused (own : Bool) (foreign : List Nat) :
    ∃ s src s', newShared own foreign = .ok s ∧ s.cell = .this ∧ s.live = [src] ∧ step s (.dispatch src true) = .ok s' ∧
      s'.alive = false ∧ s'.cell = .null := by
  refine ⟨_, _, _, rfl, rfl, rfl, rfl, rfl, rfl⟩

/-! ## C91 -/

/-- Without a main context of its own, a pool doesn't touch anyone else's sources. -/
theorem C91_foreign_partial {s s' : State} {a : Act} (h : s.own = false) (hs : step s a = .ok s') : s'.foreign = s.foreign :=
  (same_step hs).2 h

example : ∃ s', step { new false [1, 2, 3] with live := [1], idle := some 1, refs := 2 } .drain = .ok s' ∧ s'.live = [] := ⟨_, rfl, rfl⟩

/-- If the thread has its own main context (that's where the source is) then it's a source of someone else
which is removed by `gutil_idle_pool_drain`, whatever has the same id in the default main context. -/
theorem C91_foreign_refuted : ∃ s s', Reach rightThread s ∧ Allowed s .drain ∧ step s .drain = .ok s' ∧
    s.live = [1] ∧ s.foreign = [1, 2] ∧ s'.live = [1] ∧ s'.foreign = [2] := by
  have h1 := (Reach.new (P := rightThread) true [1, 2]).step (a := .add) (by decide) (by intro _ h; cases h)
    (s' := ⟨true, 2, 1, some 1, [⟨0, false⟩], some 0, false, .null, [1], true, [1, 2], 2, 1, [], [.added 0]⟩) (by decide +kernel)
  have h2 := h1.step (a := .drain) (by decide) (by intro _ h; cases h)
    (s' := ⟨true, 2, 1, some 1, [], none, false, .null, [1], true, [1, 2], 2, 1, [⟨[], .ret⟩], [.added 0, .destroy 0]⟩) (by decide +kernel)
  exact ⟨_, _, h2, by decide, rfl, rfl, rfl, rfl, rfl⟩

end Verif.Pool
