import Verif.Proof.IdlePoolRefs

/-!
# C116: lifetime of the idle pool

`acts` is everything the client (and the main loop) has done with the pool, from its creation on. The client has got one reference
when the pool was created by `gutil_idle_pool_new` and none if that was `gutil_idle_pool_get`; `gutil_idle_pool_ref` gives it one more, `gutil_idle_pool_unref`
and `gutil_idle_pool_destroy` take one away.
-/

namespace Verif.Pool
open Verif.C

/-- The number of calls of `gutil_idle_pool_ref` -/
def refs (acts : List Act) : Nat := acts.count .ref

/-- The number of calls of `gutil_idle_pool_unref` and `gutil_idle_pool_destroy` -/
def unrefs (acts : List Act) : Nat := acts.count .unref + acts.count .destroy

theorem refs_eq (acts : List Act) : (acts.map taken).sum = refs acts := by
  unfold refs
  induction acts with
  | nil => rfl
  | cons a t ih =>
    rw [List.map_cons, List.sum_cons, List.count_cons, ih]
    cases a <;> simp [taken, Nat.add_comm]

theorem unrefs_eq (acts : List Act) : (acts.map dropped).sum = unrefs acts := by
  unfold unrefs
  induction acts with
  | nil => rfl
  | cons a t ih =>
    rw [List.map_cons, List.sum_cons, List.count_cons, List.count_cons, ih]
    cases a <;> simp [dropped] <;> omega

/-- The pool which has been created: by `gutil_idle_pool_new`, or by `gutil_idle_pool_get`. `n` is the number of references which belong to the client. -/
inductive Created : State → Nat → Prop
  | new (own : Bool) (foreign : List Nat) : Created (new own foreign) 1
  | shared {own : Bool} {foreign : List Nat} {s : State} : newShared own foreign = .ok s → Created s 0

theorem Created.reach {s : State} {n : Nat} (h : Created s n) : Reach any s ∧ s.owned = n ∧ s.stack = [] := by
  cases h with
  | new own foreign => exact ⟨.new own foreign, rfl, rfl⟩
  | shared h => exact ⟨.shared h, by cases h; exact ⟨rfl, rfl⟩⟩

theorem owned_eq {s0 s : State} {n : Nat} {acts : List Act} (h0 : Created s0 n) (hl : legal s0 acts = true) (h : exec s0 acts = .ok s) :
    s.owned + unrefs acts = n + refs acts + drops s.stack ∧ Reach any s := by
  obtain ⟨h1, h2, h3⟩ := h0.reach
  have := exec_owned acts h1 hl h
  rw [refs_eq, unrefs_eq, h2, h3, show drops [] = 0 from rfl] at this
  exact ⟨by omega, reach_exec (fun _ _ _ => trivial) h1 hl h⟩

/-- C116. As long as the client has references to the pool, it isn't deallocated. -/
theorem C116_alive {s0 s : State} {n : Nat} {acts : List Act} (h0 : Created s0 n) (hl : legal s0 acts = true) (h : exec s0 acts = .ok s)
    (hc : unrefs acts < n + refs acts) : s.alive = true := by
  obtain ⟨h1, h2⟩ := owned_eq h0 hl h
  have h3 := any_inv h2
  have h4 := h3.refsEq
  exact h3.alive (.inr (by omega))

/-- C116. Outside of destroy functions which the pool is calling: the pool exists if the client has references to it, or it's going to be drained by
the main loop (there's an idle source), or it's a new shared one which hasn't been drained yet (the item which is its own reference is still there); otherwise
it has been deallocated. -/
theorem C116_exists {s0 s : State} {n : Nat} {acts : List Act} (h0 : Created s0 n) (hl : legal s0 acts = true) (h : exec s0 acts = .ok s)
    (hs : s.stack = []) : s.alive = true ↔ unrefs acts < n + refs acts ∨ s.live ≠ [] ∨ ∃ i ∈ s.items, i.self = true := by
  obtain ⟨h1, h2⟩ := owned_eq h0 hl h
  rw [hs, show drops [] = 0 from rfl] at h1
  rw [C71_alive h2 hs]
  have : 0 < s.owned ↔ unrefs acts < n + refs acts := by omega
  rw [this]

/-- C116. The last reference is dropped with nothing in the pool: it's deallocated. (If the thread has no main context of its own; otherwise see C91.) -/
theorem C116_gone {s0 s : State} {n : Nat} {acts : List Act} (h0 : Created s0 n) (hl : legal s0 acts = true) (h : exec s0 acts = .ok s)
    (hs : s.stack = []) (ho : s.own = false) (hi : s.items = []) (hc : unrefs acts = n + refs acts) : s.alive = false := by
  obtain ⟨h1, h2⟩ := owned_eq h0 hl h
  have h3 := C116_exists h0 hl h hs
  rw [C71_idle h2 ho hs hi, hi] at h3
  cases ha : s.alive with
  | false => rfl
  | true => simp [ha, hc] at h3

/-- Two references, one of which is dropped by `gutil_idle_pool_destroy`, and the other one by the destroy function -/
example : ∃ acts s, legal (new false []) acts = true ∧ exec (new false []) acts = .ok s ∧ unrefs acts = 1 + refs acts ∧ s.stack = [] ∧ s.own = false ∧
    s.items = [] ∧ destroys s.log = [0] := by
  refine ⟨[.add, .ref, .destroy, .unref, .ret], ⟨false, 0, 0, none, [], none, false, .null, [], false, [], 2, 1, [], [.added 0, .destroy 0, .drained 0, .drained 0]⟩,
    by decide +kernel, by decide +kernel, by decide, rfl, rfl, rfl, rfl⟩

/-- A shared pool which exists because of a reference -/
example : ∃ s0 acts s, Created s0 0 ∧ legal s0 acts = true ∧ exec s0 acts = .ok s ∧ unrefs acts < 0 + refs acts ∧ s.live = [] ∧ s.items = [] :=
  ⟨⟨true, 2, 0, some 1, [⟨0, true⟩], some 0, true, .this, [1], false, [], 2, 1, [], [.added 0]⟩, [.ref, .dispatch 1 true],
    ⟨true, 1, 1, none, [], none, true, .this, [], false, [], 2, 1, [], [.added 0, .destroy 0, .drained 0]⟩, .shared (own := false) (foreign := []) (by decide +kernel),
    by decide +kernel, by decide +kernel, by decide, rfl, rfl⟩

end Verif.Pool
