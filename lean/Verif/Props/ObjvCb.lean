import Verif.Proof.ObjvCbRun

/-!
# Object vectors used by finalizers: theorems

`Reach P refs s t` says that the program has reached the state `s`, following the usual rules for object vectors (`Objv.Spec.Pre`) and
the additional ones (`P`), from its own code and from the finalizers of its objects. `t` is what it thinks it has: its own references
and the contents of its vectors, as if each call was made in no time (`Objv.Spec.next`). `refs` are the references which it had in the
beginning.
-/

namespace Verif.ObjvCb
open Verif.C Verif.Objv
open Verif.Strv.Spec (Holds)
open Verif.Objv.Spec (Op)

instance (t : Objv.Spec.State) (o : Option Nat) : Decidable (∀ a, o = some a → 0 < t.refs a) :=
  match o with
  | none => isTrue (fun _ h => nomatch h)
  | some a => decidable_of_iff (0 < t.refs a) ⟨fun h _ e => by cases e; exact h, fun h => h a rfl⟩

instance (t : Objv.Spec.State) (op : Op) : Decidable (Objv.Spec.Pre t op) := by
  cases op <;> unfold Objv.Spec.Pre <;> infer_instance

/-- No additional rules -/
def Any (_ : State) (_ : Act) : Prop := True

/-- The program drops its own reference to the object 0, leaving the vector number 0 as its only owner. -/
def sampleState : State := ⟨[1, 2], [some [.ptr 0, .ptr 1, .null]], [some 0], [], []⟩

theorem sample_reach (P : State → Act → Prop) (h : ∀ op s, uses op = [] → P s (.call op)) :
    Reach P [1, 1] sampleState ⟨fun x => if x = 0 then 0 else cnt [1, 1] x, [[0, 1]]⟩ := by
  have h0 : Reach P [1, 1] ⟨[1, 1], [], [], [], []⟩ ⟨cnt [1, 1], []⟩ := .new (by decide)
  have h1 := h0.call (op := .new [0, 1]) (s' := ⟨[2, 2], [some [.ptr 0, .ptr 1, .null]], [some 0], [], []⟩)
    (by decide) (h _ _ rfl) (by decide)
  have h2 := h1.call (op := .unref 0) (s' := sampleState) (by decide) (h _ _ rfl) (by decide)
  have e : Objv.Spec.next (Objv.Spec.next ⟨cnt [1, 1], []⟩ (.new [0, 1])) (.unref 0) =
      ⟨fun x => if x = 0 then 0 else cnt [1, 1] x, [[0, 1]]⟩ := by
    simp only [Objv.Spec.next, List.nil_append, Objv.Spec.State.mk.injEq, and_true]
    funext x
    by_cases e : x = 0
    · subst e; rfl
    · rw [if_neg e, if_neg e]
  rw [← e]
  exact h2

/-- **C111, refuted in general**: the finalizer of an object which is being removed from a vector (or the vector is being freed) isn't
even allowed to look at this vector: it still contains the object which is gone, and copying it brings that object back. -/
theorem C111_copy_refuted : ∀ op ∈ [Op.remove 0 (some 0) false, .remove 0 (some 0) true, .removeAt 0 0, .free 0],
    ∃ s t s', Reach Any [1, 1] s t ∧ Objv.Spec.Pre t op ∧ call s op = .ok s' ∧ s'.stack ≠ [] ∧
      Objv.Spec.Pre (Objv.Spec.next t op) (.copy 0) ∧ call s' (.copy 0) = .error .useAfterFree := by
  intro op hop
  simp only [List.mem_cons, List.not_mem_nil, or_false] at hop
  have h := sample_reach Any (fun _ _ _ => trivial)
  rcases hop with rfl | rfl | rfl | rfl
  · exact ⟨_, _, ⟨[0, 2], [some [.ptr 0, .ptr 1, .null]], [some 0], [.remove 0 0 0 2 none], [0]⟩, h, by decide, by decide, by simp, by decide,
      by decide⟩
  · exact ⟨_, _, ⟨[0, 2], [some [.ptr 0, .ptr 1, .null]], [some 0], [.remove 0 0 0 2 (some (0, 0, 1))], [0]⟩, h, by decide, by decide, by simp,
      by decide, by decide⟩
  · exact ⟨_, _, ⟨[0, 2], [some [.ptr 0, .ptr 1, .null]], [some 0], [.remove 0 0 0 2 none], [0]⟩, h, by decide, by decide, by simp, by decide,
      by decide⟩
  · exact ⟨_, _, ⟨[0, 2], [some [.ptr 0, .ptr 1, .null]], [some 0], [.free 0 0 1], [0]⟩, h, by decide, by decide, by simp, by decide,
      by decide⟩

/-- **C111, refuted in general**: if it adds an object to this vector then, having returned, the function goes on with the memory
which is gone. -/
theorem C111_add_refuted : ∀ op ∈ [Op.remove 0 (some 0) false, .remove 0 (some 0) true, .removeAt 0 0, .free 0],
    ∃ s t s' s'', Reach Any [1, 1] s t ∧ Objv.Spec.Pre t op ∧ call s op = .ok s' ∧
      Objv.Spec.Pre (Objv.Spec.next t op) (.add 0 (some 1)) ∧ call s' (.add 0 (some 1)) = .ok s'' ∧ s''.stack ≠ [] ∧
      ret s'' = .error .useAfterFree := by
  intro op hop
  simp only [List.mem_cons, List.not_mem_nil, or_false] at hop
  have h := sample_reach Any (fun _ _ _ => trivial)
  rcases hop with rfl | rfl | rfl | rfl
  · exact ⟨_, _, ⟨[0, 2], [some [.ptr 0, .ptr 1, .null]], [some 0], [.remove 0 0 0 2 none], [0]⟩,
      ⟨[0, 3], [none, some [.ptr 0, .ptr 1, .ptr 1, .null]], [some 1], [.remove 0 0 0 2 none], [0]⟩, h, by decide, by decide,
      by decide, by decide, by simp, by decide⟩
  · exact ⟨_, _, ⟨[0, 2], [some [.ptr 0, .ptr 1, .null]], [some 0], [.remove 0 0 0 2 (some (0, 0, 1))], [0]⟩,
      ⟨[0, 3], [none, some [.ptr 0, .ptr 1, .ptr 1, .null]], [some 1], [.remove 0 0 0 2 (some (0, 0, 1))], [0]⟩, h, by decide, by decide,
      by decide, by decide, by simp, by decide⟩
  · exact ⟨_, _, ⟨[0, 2], [some [.ptr 0, .ptr 1, .null]], [some 0], [.remove 0 0 0 2 none], [0]⟩,
      ⟨[0, 3], [none, some [.ptr 0, .ptr 1, .ptr 1, .null]], [some 1], [.remove 0 0 0 2 none], [0]⟩, h, by decide, by decide,
      by decide, by decide, by simp, by decide⟩
  · exact ⟨_, _, ⟨[0, 2], [some [.ptr 0, .ptr 1, .null]], [some 0], [.free 0 0 1], [0]⟩,
      ⟨[0, 3], [none, some [.ptr 0, .ptr 1, .ptr 1, .null]], [some 1], [.free 0 0 1], [0]⟩, h, by decide, by decide,
      by decide, by decide, by simp, by decide⟩

/-- **C111**, for finalizers which don't use the vectors being changed: whatever else they do (including making, changing and freeing
other vectors, and dropping references to other objects whose finalizers do the same), nothing is used after it's gone, neither by the
calls nor by what follows when the finalizers return. -/
theorem C111_safe_partial {refs : Refs} {s : State} {t : Objv.Spec.State} (h : Reach Polite refs s t) :
    (∀ op, Objv.Spec.Pre t op → Polite s (.call op) → ∃ s', call s op = .ok s') ∧ (s.stack ≠ [] → ∃ s', ret s = .ok s') := by
  obtain ⟨A, E, hi⟩ := reach_inv h
  constructor
  · intro op hp hq
    obtain ⟨s', _, _, h1, _⟩ := call_inv hi hp hq
    exact ⟨s', h1⟩
  · intro hs
    obtain ⟨s', _, _, h1, _⟩ := ret_inv hi hs
    exact ⟨s', h1⟩

/-- **C111** When all calls are done, all vectors have the contents they should have, the number of references to each object is
that of the program's own plus the number of occurrences in all its vectors, and there is no memory but that of the vectors. -/
theorem C111_exact_partial {refs : Refs} {s : State} {t : Objv.Spec.State} (h : Reach Polite refs s t) (hs : s.stack = []) :
    s.vars.length = t.vecs.length ∧ (∀ v, ∃ o, vec s v = .ok o ∧ Holds o (t.vec v)) ∧ (∀ x, cnt s.refs x = t.refs x) ∧
      ∀ (a : Nat) (b : Block), s.blocks[a]? = some (some b) → ∃ v : Nat, s.vars[v]? = some (some a) := by
  obtain ⟨A, E, hi⟩ := reach_inv h
  have hc := hi.core
  rw [hs] at hc
  have hb : ∀ v, v ∉ busy [] := fun v hv => by cases hv
  refine ⟨hc.len, ?_, ?_, ?_⟩
  · intro v
    obtain ⟨o, h1, h2, -⟩ := vec_ok hc (hb v)
    exact ⟨o, h1, h2⟩
  · intro x
    rw [hc.refs x, refs_eq, hc.len, total_congr (F := t.vec) (fun v _ => (hc.quiet v (hb v)).2.1)]
  · intro a b hab
    obtain ⟨v, hv⟩ := hc.owned a b hab
    refine ⟨v, ?_⟩
    have h1 := (hc.quiet v (hb v)).1
    rw [hv] at h1
    cases e : s.vars[v]? with
    | none => rw [e] at h1; cases h1
    | some w =>
      rw [e, Option.getD_some] at h1
      rw [h1]

/-- **C111** In the meantime, which is when finalizers run, the vectors which aren't being changed have the contents they should
have, and those objects which should have references do have them. -/
theorem C111_meantime_partial {refs : Refs} {s : State} {t : Objv.Spec.State} (h : Reach Polite refs s t) :
    (∀ v, v ∉ busy s.stack → ∃ o, vec s v = .ok o ∧ Holds o (t.vec v)) ∧ ∀ x, t.refs x ≤ cnt s.refs x := by
  obtain ⟨A, E, hi⟩ := reach_inv h
  constructor
  · intro v hv
    obtain ⟨o, h1, h2, -⟩ := vec_ok hi.core hv
    exact ⟨o, h1, h2⟩
  · exact count_alive hi.core

/-- **C111** The finalizer of an object is called once, and that happens when the last reference is dropped. -/
theorem C111_once_partial {refs : Refs} {s : State} {t : Objv.Spec.State} (h : Reach Polite refs s t) :
    s.finalized.Nodup ∧ (∀ x, x ∈ s.finalized ↔ x < refs.length ∧ cnt s.refs x = 0) ∧ (∀ x ∈ s.finalized, t.refs x = 0) ∧
      (s.stack = [] → ∀ x, x ∈ s.finalized ↔ x < refs.length ∧ t.refs x = 0) := by
  obtain ⟨A, E, hi⟩ := reach_inv h
  refine ⟨hi.core.once, hi.core.dead, ?_, ?_⟩
  · intro x hx
    have h1 := ((hi.core.dead x).mp hx).2
    have h2 := count_alive hi.core x
    omega
  · intro hs x
    rw [hi.core.dead x, (C111_exact_partial h hs).2.2.1 x]

/-- **C111** All calls get done: having returned from the finalizers which are running now and from those which are called by that,
no more of them than there are objects, the program is back where it has made the outermost call. -/
theorem C111_done_partial {refs : Refs} {s : State} {t : Objv.Spec.State} (h : Reach Polite refs s t) :
    ∃ n s', n ≤ s.stack.length + refs.length ∧ rets n s = .ok s' ∧ s'.stack = [] ∧ Reach Polite refs s' t := by
  obtain ⟨A, E, hi⟩ := reach_inv h
  obtain ⟨n, s', _, _, h1, h2, h3, _⟩ := rets_inv (s.stack.length + refs.length) hi (by omega)
  have key : ∀ (n : Nat) {s s' : State}, Reach Polite refs s t → rets n s = .ok s' → s'.stack = [] →
      ∃ m s'', m ≤ n ∧ rets m s = .ok s'' ∧ s''.stack = [] ∧ Reach Polite refs s'' t := by
    intro n
    induction n with
    | zero =>
      intro s s' hr he hs
      cases he
      exact ⟨0, s, Nat.le_refl _, rfl, hs, hr⟩
    | succ n ih =>
      intro s s' hr he hs
      by_cases hst : s.stack = []
      · exact ⟨0, s, Nat.zero_le _, rfl, hst, hr⟩
      · obtain ⟨s1, g1, g2⟩ := bind_ok he
        obtain ⟨m, s'', k1, k2, k3, k4⟩ := ih (hr.ret hst trivial g1) g2 hs
        exact ⟨m + 1, s'', by omega, by rw [rets, g1, ok_bind]; exact k2, k3, k4⟩
  obtain ⟨m, s'', k1, k2, k3, k4⟩ := key n h h2 h3
  exact ⟨m, s'', by omega, k2, k3, k4⟩

/-- A finalizer is running: the object 0 is being removed from the vector. It drops the program's reference to the object 1, makes
another vector out of it and returns; then the vector is freed. -/
example : ∃ s1 s2 s3 s4 s5 t, Reach Polite [1, 1] s1 t ∧ s1.stack = [.remove 0 0 0 2 none] ∧ s1.finalized = [0] ∧
    call s1 (.unref 1) = .ok s2 ∧ call s2 (.new [1, 1]) = .ok s3 ∧ ret s3 = .ok s4 ∧ call s4 (.free 0) = .ok s5 ∧
    s5 = ⟨[0, 2], [none, some [.ptr 1, .ptr 1, .null], none], [none, some 1], [], [0]⟩ := by
  have h := sample_reach Polite (fun op s hu => by
    have : ∀ v ∈ uses op, v ∉ busy s.stack := by rw [hu]; intro v hv; cases hv
    exact this)
  exact ⟨⟨[0, 2], [some [.ptr 0, .ptr 1, .null]], [some 0], [.remove 0 0 0 2 none], [0]⟩,
    ⟨[0, 1], [some [.ptr 0, .ptr 1, .null]], [some 0], [.remove 0 0 0 2 none], [0]⟩,
    ⟨[0, 3], [some [.ptr 0, .ptr 1, .null], some [.ptr 1, .ptr 1, .null]], [some 0, some 1], [.remove 0 0 0 2 none], [0]⟩,
    ⟨[0, 3], [none, some [.ptr 1, .ptr 1, .null], some [.ptr 1, .null]], [some 2, some 1], [], [0]⟩, _, _,
    h.call (op := .removeAt 0 0) (by decide) (by decide) (by decide), rfl, rfl, by decide, by decide, by decide, by decide, rfl⟩

end Verif.ObjvCb
