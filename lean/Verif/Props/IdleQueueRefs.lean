import Verif.Props.IdleQueue

/-!
# C114: lifetime of the idle queue
-/

namespace Verif.Idle
open Verif.C

theorem clearSource_refs {s s' : State} (h : s.clearSource = .ok s') : s'.refs = s.refs := by
  unfold State.clearSource at h
  split at h
  · injection h with h; rw [h]
  · split at h
    · injection h with h; rw [← h]
    · cases h

theorem clearIfEmpty_refs {s s' : State} (h : clearIfEmpty s = .ok s') : s'.refs = s.refs := by
  unfold clearIfEmpty at h
  split at h
  · exact clearSource_refs h
  · injection h with h; rw [h]

theorem cancelLoop_refs {s s' : State} {b : Nat} {f : Bool} (h : cancelLoop s b f = .ok s') : s'.refs = s.refs := by
  unfold cancelLoop at h
  split at h
  · injection h with h; rw [← h]
  · rename_i items last gone _
    unfold cancelEnd at h
    cases hc : clearIfEmpty { s with items := items, last := last, log := s.log ++ gone.map (fun i => .cancel i.id) } with
    | error e => rw [hc] at h; cases h
    | ok s1 =>
      rw [hc, ok_bind] at h
      injection h with h
      rw [← h]
      have q := clearIfEmpty_refs hc
      exact q

theorem runLoop_refs (s : State) (d src b : Nat) : (runLoop s d src b).refs = s.refs := by
  unfold runLoop
  split
  · split <;> rfl
  · unfold runEnd
    split <;> rfl

theorem access_bind {s : State} {α : Type} {k : M α} {r : α} (h : (s.access >>= fun _ => k) = .ok r) : k = .ok r := by
  unfold State.access at h
  split at h
  · exact h
  · cases h

theorem itemDestroy_refs {s s' : State} {i : Item} {f : Frame} {k : State → M State} (hk : ∀ a b, k a = .ok b → b.refs = a.refs)
    (h : itemDestroy s i f k = .ok s') : s'.refs = s.refs := by
  unfold itemDestroy at h
  split at h
  · injection h with h; rw [← h]
  · have q := hk _ _ h
    exact q

theorem cancelTag_refs {s : State} {tag : Nat} {r : State × Bool} (h : cancelTag s tag = .ok r) : r.1.refs = s.refs := by
  unfold cancelTag at h
  split at h
  · injection h with h; rw [← h]
  · rename_i i t _
    split at h
    · cases hd : itemDestroy { s with items := t, last := lastOf t s.last } i (.tagFirst i) clearIfEmpty with
      | error e => rw [hd] at h; cases h
      | ok s1 =>
        rw [hd, ok_bind] at h
        injection h with h
        rw [← h]
        have q := itemDestroy_refs (k := clearIfEmpty) (fun a b => clearIfEmpty_refs) hd
        exact q
    · split at h
      · rename_i x t' last _
        cases hd : itemDestroy { s with items := i :: t', last := last } x (.tagOther x) .ok with
        | error e => rw [hd] at h; cases h
        | ok s1 =>
          rw [hd, ok_bind] at h
          injection h with h
          rw [← h]
          have q := itemDestroy_refs (k := .ok) (fun a b hab => by injection hab with hab; rw [hab]) hd
          exact q
      · injection h with h; rw [← h]

theorem ret_refs {s s' : State} (h : ret s = .ok s') : s'.refs = s.refs := by
  unfold ret at h
  split at h
  · cases h
  · unfold afterRun at h
    split at h
    · injection h with h; rw [← h]
    · have h := access_bind h
      injection h with h
      rw [← h, runLoop_refs]
  · have h := access_bind h
    injection h with h
    rw [← h, runLoop_refs]
  · have h := access_bind h
    have q := clearIfEmpty_refs h
    exact q
  · injection h with h; rw [← h]
  · have h := access_bind h
    have q := cancelLoop_refs h
    exact q

/-- References are counted. -/
theorem step_refs {s s' : State} {a : Act} (ha : Allowed s a) (h : step s a = .ok s') :
    s'.refs + (if a = .unref then 1 else 0) = s.refs + (if a = .ref then 1 else 0) := by
  cases a with
  | add tag run destroy =>
    have h := access_bind h
    rw [if_neg (by simp), if_neg (by simp)]
    unfold add at h
    cases hp : append s.items s.last ⟨s.nextId, tag, run, destroy, false⟩ with
    | error e => rw [hp] at h; cases h
    | ok items =>
      rw [hp, ok_bind] at h
      injection h with h
      rw [← h]
      unfold schedule
      split <;> rfl
  | cancelTag tag =>
    have h := access_bind h
    rw [if_neg (by simp), if_neg (by simp)]
    cases hc : cancelTag s tag with
    | error e => rw [hc] at h; cases h
    | ok r =>
      rw [hc, ok_bind] at h
      injection h with h
      rw [← h]
      have q := cancelTag_refs hc
      exact q
  | cancelAll =>
    have h := access_bind h
    rw [if_neg (by simp), if_neg (by simp)]
    have q := cancelLoop_refs h
    exact q
  | ref =>
    have h := access_bind h
    injection h with h
    rw [← h]
    rfl
  | unref =>
    have h := access_bind h
    rw [if_pos rfl, if_neg (by simp)]
    unfold unref at h
    split at h
    · rename_i h1
      have := cancelLoop_refs h
      dsimp only at this
      omega
    · injection h with h
      rw [← h]
      dsimp only
      have := ha
      unfold Allowed at this
      dsimp only at this
      omega
  | dispatch src =>
    have h := access_bind h
    injection h with h
    rw [← h, runLoop_refs]
    rfl
  | ret =>
    rw [if_neg (by simp), if_neg (by simp)]
    exact ret_refs h

theorem exec_refs : ∀ (acts : List Act) (s s' : State), legal s acts = true → exec s acts = .ok s' →
    s'.refs + acts.count .unref = s.refs + acts.count .ref := by
  intro acts
  induction acts with
  | nil => intro s s' _ h; injection h with h; rw [h]; rfl
  | cons a t ih =>
    intro s s' hl h
    unfold legal at hl
    unfold exec at h
    split at hl
    · rename_i ha
      cases hs : step s a with
      | error e => rw [hs] at h; cases h
      | ok s1 =>
        rw [hs] at hl h
        have h1 := ih s1 s' hl h
        have h2 := step_refs ha hs
        rw [List.count_cons, List.count_cons]
        simp only [beq_iff_eq]
        omega
    · cases hl

/-- C114. The reference counter is the number of references which belong to the client: the initial one, plus those taken, minus those dropped. (Hence a client which
follows the rules, in the sense of `Allowed`, is the one which only uses the queue while it has a reference, and doesn't drop the last one in a callback.) -/
theorem C114_counted {acts : List Act} {s : State} (hl : legal new acts = true) (h : exec new acts = .ok s) : s.refs + acts.count .unref = 1 + acts.count .ref :=
  exec_refs acts new s hl h

/-- C114. The queue isn't deallocated as long as there are references. -/
theorem C114_alive {acts : List Act} {s : State} (hl : legal new acts = true) (h : exec new acts = .ok s) (hc : acts.count .unref ≤ acts.count .ref) :
    s.alive = true := by
  have h1 := C114_counted hl h
  exact (reach_inv (reach_exec .new hl h)).alive' (by omega)

/-- C114. When the last reference has been dropped, and all destroy callbacks have returned, the queue doesn't exist anymore: nothing is left in it, and there's no
idle source. (That the callbacks are called is C65.) -/
theorem C114_gone {acts : List Act} {s : State} (hl : legal new acts = true) (h : exec new acts = .ok s) (hc : acts.count .unref = acts.count .ref + 1)
    (hs : s.stack = []) : s.alive = false ∧ s.items = [] ∧ s.live = [] := by
  have h1 := C114_counted hl h
  have hi := reach_inv (reach_exec .new hl h)
  have ha : s.alive = false := by
    cases ha : s.alive with
    | false => rfl
    | true =>
      obtain ⟨f, hf, _⟩ := hi.refs ha (by omega)
      rw [hs] at hf
      cases hf
  exact ⟨ha, (hi.dead ha).1, (C67_at_most_one (reach_exec .new hl h)).2 ha⟩

/-- C114. What's been pending when the last reference is dropped isn't run. -/
theorem C114_not_run {acts : List Act} {s s' : State} (hl : legal new acts = true) (h : exec new acts = .ok s) (ha : Allowed s .unref)
    (hc : acts.count .unref = acts.count .ref) (hs : step s .unref = .ok s') : runs s'.log = runs s.log ∧ s'.refs = 0 := by
  have h1 := C114_counted hl h
  have h2 : s.refs = 1 := by omega
  have h3 := step_refs ha hs
  refine ⟨?_, by rw [if_pos rfl, if_neg (by simp)] at h3; omega⟩
  have hs := access_bind hs
  unfold unref at hs
  rw [if_pos h2] at hs
  unfold cancelAll cancelLoop at hs
  have rm : ∀ l : List Item, runs (l.map (fun i => Event.cancel i.id)) = [] := by
    intro l
    induction l with
    | nil => rfl
    | cons i t ih => exact ih
  split at hs
  · injection hs with hs
    rw [← hs]
    dsimp only
    rw [runs_append, runs_append, runs_append, rm]
    simp [runs]
  · rename_i items last gone _
    unfold cancelEnd clearIfEmpty State.clearSource at hs
    dsimp only at hs
    repeat' split at hs
    all_goals first
      | cases hs; done
      | (injection hs with hs
         rw [← hs]
         dsimp only
         rw [runs_append, runs_append, runs_append, rm]
         simp [runs])

/-- Two references, both of which are dropped, one of them in a callback -/
example : ∃ acts s, legal new acts = true ∧ exec new acts = .ok s ∧ acts.count .unref = acts.count .ref + 1 ∧ s.stack = [] ∧ runs s.log = [0] ∧
    s.log.count (.destroy 1) = 1 := by
  refine ⟨[.add 1 true true, .add 1 true true, .ref, .dispatch 1, .unref, .cancelTag 1, .ret, .ret, .ret, .add 2 true true, .unref, .ret],
    ⟨false, 0, none, [], none, [], 3, 3, 1, [], [.added 0 true true, .added 1 true true, .begin 0, .run 0 0, .cancel 1, .destroy 1, .destroy 0, .ended 0,
      .added 2 true true, .allCalled 3, .cancel 2, .destroy 2, .allDone 3]⟩, by decide +kernel, by decide +kernel, by decide, rfl, rfl, by decide⟩

end Verif.Idle
