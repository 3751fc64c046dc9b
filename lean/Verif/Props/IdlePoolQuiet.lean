import Verif.Proof.IdlePoolQuiet

/-!
# The idle pool if destroy functions do nothing to it (C70)

What the functions do, from the beginning to the end, as long as the destroy functions just return.
-/

namespace Verif.Pool
open Verif.C

/-- **C70** `gutil_idle_pool_drain`, `gutil_idle_pool_destroy`, an iteration of the main loop, and `gutil_idle_pool_unref` dropping the last reference, all of them destroy everything that
there is in the pool, in the order of addition, and nothing else; and come to an end once each of the destroy functions has returned. -/
theorem C70_runs {s : State} (h : Reach any s) {a : Act} (ha : Allowed s a) (hd : a = .drain ∨ a = .destroy ∨ (∃ src, a = .dispatch src true) ∨ a = .unref ∧ s.refs = 1) :
    ∃ s', exec s (a :: List.replicate (s.items.countP (fun i => !i.self)) .ret) = .ok s' ∧ s'.stack = s.stack ∧ s'.items = [] ∧
      destroys s'.log = destroys s.log ++ s.items.map Item.id ∧ adds s'.log = adds s.log := by
  obtain ⟨s0, e⟩ := C70_safe_partial h ha
  have key : ∃ s', exec s (a :: List.replicate (clients s.items) .ret) = .ok s' ∧ Reach any s' ∧ s'.stack = s.stack ∧ s'.items = [] ∧
      destroys s'.log = destroys s.log ++ s.items.map Item.id ∧ adds s'.log = adds s.log := by
    refine quiet h ha e ?_
    rcases hd with rfl | rfl | ⟨src, rfl⟩ | ⟨rfl, hr⟩
    · have e : drainNext s .ret (after .ret) = .ok s0 := e
      obtain ⟨h1, h2, h3⟩ := drainNext_spec e (fun s1 hi h => still_after hi h)
      exact ⟨h1, h2, h3.imp id (fun h => ⟨_, h⟩)⟩
    · have e : drainNext s .destroy (after .destroy) = .ok s0 := e
      obtain ⟨h1, h2, h3⟩ := drainNext_spec e (fun s1 hi h => still_after hi h)
      exact ⟨h1, h2, h3.imp id (fun h => ⟨_, h⟩)⟩
    · have e : dispatch s src true = .ok s0 := e
      unfold dispatch at e
      obtain ⟨_, _, e⟩ := bind_inv e
      rw [if_pos rfl] at e
      have e : drainNext { s with idle := none } (.idle src) (after (.idle src)) = .ok s0 := e
      obtain ⟨h1, h2, h3⟩ := drainNext_spec e (fun s1 hi h => still_after hi h)
      exact ⟨h1, h2, h3.imp id (fun h => ⟨_, h⟩)⟩
    · have e : unref { s with owned := s.owned - 1 } = .ok s0 := e
      unfold unref at e
      obtain ⟨_, _, e⟩ := bind_inv e
      rw [if_neg (by dsimp only; omega), if_pos hr] at e
      obtain ⟨h1, h2, h3⟩ := drainNext_spec e (fun s1 hi h => still_free h)
      have q := still_clearCell { s with owned := s.owned - 1, refs := 0 }
      rw [q.stack, q.items, q.destroys] at h3
      rw [q.adds] at h2
      exact ⟨h1, h2, h3.imp id (fun h => ⟨_, h⟩)⟩
  obtain ⟨s', e, _, h1⟩ := key
  exact ⟨s', e, h1⟩

/-- The shared pool with two more items, being used by the client and drained -/
example : ∃ s, Reach any s ∧ Allowed s .drain ∧ Allowed s (.dispatch 1 true) ∧ s.items = [⟨0, true⟩, ⟨1, false⟩, ⟨2, false⟩] := by
  refine ⟨_, reach_exec (P := any) (acts := [.ref, .add, .add]) (fun _ _ _ => trivial) (.shared (own := false) (foreign := []) rfl) (by decide +kernel) rfl, ?_⟩
  decide +kernel

/-- What's added becomes the last item of the pool, with a number of its own, and nothing is destroyed by that. There's an idle source then, the one which was
there or else a new one. -/
theorem C70_added {s s' : State} (h : Reach any s) (ha : Allowed s .add) (e : step s .add = .ok s') :
    ∃ id, id ∉ adds s.log ∧ s'.log = s.log ++ [.added id] ∧ s'.items = s.items ++ [⟨id, false⟩] ∧ s'.stack = s.stack ∧ s'.idle.isSome ∧
      (s.idle.isSome → s'.live = s.live) := by
  have hi := any_inv h
  have e : (s.access >>= fun _ => add s false) = .ok s' := e
  rw [access_ok (hi.alive (.inr ha)), ok_bind, add, append_last hi.sorted hi.lastEq, ok_bind] at e
  cases e
  refine ⟨s.nextId, ?_, ?_⟩
  · rw [hi.hist.adds]
    simp
  · unfold schedule
    dsimp only
    split
    · next x hx => exact ⟨rfl, rfl, rfl, by rw [hx]; rfl, fun _ => rfl⟩
    · next hx => exact ⟨rfl, rfl, rfl, rfl, fun h => by rw [hx] at h; cases h⟩

/-- A destroy function adding something -/
example : ∃ s, Reach any s ∧ Allowed s .add ∧ s.stack ≠ [] ∧ s.items = [] ∧ adds s.log = [0, 1] := by
  refine ⟨_, reach_exec (P := any) (acts := [.add, .add, .drain]) (fun _ _ _ => trivial) (.new false []) (by decide +kernel) rfl, ?_⟩
  decide +kernel

end Verif.Pool
