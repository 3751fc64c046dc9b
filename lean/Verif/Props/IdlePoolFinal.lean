import Verif.Props.IdlePoolQuiet

/-!
# Something being added to an idle pool which is being deallocated (C70)
-/

namespace Verif.Pool
open Verif.C

/-- The pool being deallocated, with a source which holds a reference to it -/
structure Doomed (own : Bool) (src : Nat) (t l : List Item) (s : State) : Prop where
  alive : s.alive = true
  own : s.own = own
  refs : s.refs = 1
  idle : s.idle = some src
  live : s.live = [src]
  stack : s.stack = [⟨t, .final⟩]
  items : s.items = l
  plain : ∀ i ∈ t ++ l, i.self = false

theorem doomed_rest {own : Bool} {src : Nat} {i : Item} {t l : List Item} {s : State} (h : Doomed own src (i :: t) l s) :
    ∃ s', step s .ret = .ok s' ∧ Doomed own src t l s' := by
  refine ⟨{ s with stack := [⟨t, .final⟩], log := s.log ++ [.destroy i.id] }, ?_, ⟨h.alive, h.own, h.refs, h.idle, h.live, rfl, h.items, fun j hj => h.plain j (List.mem_cons_of_mem _ hj)⟩⟩
  show ret s = _
  unfold ret
  rw [h.stack]
  dsimp only
  rw [proc, if_neg (by rw [h.plain i (by simp)]; simp), ok_bind]
  rfl

theorem doomed_next {own : Bool} {src : Nat} {i : Item} {l : List Item} {s : State} (h : Doomed own src [] (i :: l) s) :
    ∃ s', step s .ret = .ok s' ∧ Doomed own src l [] s' := by
  refine ⟨{ s with stack := [⟨l, .final⟩], items := [], last := none, log := s.log ++ [.destroy i.id] }, ?_,
    ⟨h.alive, h.own, h.refs, h.idle, h.live, rfl, rfl, fun j hj => h.plain j (by simp at hj ⊢; exact .inr hj)⟩⟩
  show ret s = _
  unfold ret
  rw [h.stack]
  dsimp only
  rw [proc, ok_bind]
  dsimp only
  rw [if_pos rfl]
  unfold drain drainNext State.access
  dsimp only
  rw [if_pos h.alive, ok_bind, h.items, if_neg (by simp), proc, if_neg (by rw [h.plain i (by simp)]; simp), ok_bind]
  rfl

theorem doomed_last {own : Bool} {src : Nat} {s : State} (h : Doomed own src [] [] s) :
    (own = false → step s .ret = .error .doubleFree) ∧ (own = true → ∃ s', step s .ret = .ok s' ∧ s'.alive = false ∧ s'.live = [src]) := by
  have e : step s .ret = drainEnd { s with stack := [] } (after .final) := by
    show ret s = _
    unfold ret
    rw [h.stack]
    dsimp only
    rw [proc, ok_bind]
    dsimp only
    rw [if_pos rfl]
    unfold drain drainNext State.access
    dsimp only
    rw [if_pos h.alive, ok_bind, h.items, if_pos rfl]
  rw [e]
  unfold drainEnd
  dsimp only
  rw [h.idle]
  dsimp only
  unfold removeIdle
  dsimp only
  constructor
  · intro ho
    rw [if_neg (by rw [h.own, ho]; simp), h.live, if_pos (by simp), h.refs, if_neg (by decide), if_pos rfl]
    have hf : ∀ x : State, x.alive = true → ∃ y, free (clearCell x) = .ok y ∧ y.alive = false := by
      intro x hx
      unfold free clearCell
      split <;> simp [hx]
    obtain ⟨y, h1, h2⟩ := hf _ (show State.alive { s with stack := [], idle := none, live := [src].erase src, refs := 0 } = true from h.alive)
    rw [h1, ok_bind]
    unfold after free
    dsimp only
    rw [if_neg (by rw [h2]; simp)]
  · intro ho
    rw [if_pos (by rw [h.own, ho]), ok_bind]
    unfold after free
    dsimp only
    rw [if_pos h.alive]
    exact ⟨_, rfl, rfl, h.live⟩

theorem exec_snoc {s s1 : State} {a : Act} {l : List Act} (h : step s a = .ok s1) : exec s (a :: l) = exec s1 l := by
  rw [exec, h]

theorem exec_one_error {s : State} {a : Act} {e : UB} (h : step s a = .error e) : exec s [a] = .error e := by
  rw [exec, h]

theorem doomed_run {own : Bool} {src : Nat} {l : List Item} : ∀ {t : List Item} {s : State}, Doomed own src t l s → ∃ s', Doomed own src [] l s' ∧ ∀ n, exec s (List.replicate (t.length + n) .ret) = exec s' (List.replicate n .ret) := by
  intro t
  induction t with
  | nil => intro s h; exact ⟨s, h, fun n => by simp⟩
  | cons i t ih =>
    intro s h
    obtain ⟨s1, e, h1⟩ := doomed_rest h
    obtain ⟨s2, h2, h3⟩ := ih h1
    refine ⟨s2, h2, fun n => ?_⟩
    rw [List.length_cons, show t.length + 1 + n = t.length + n + 1 from by omega, List.replicate_succ, exec_snoc e, h3]

theorem doomed_all {own : Bool} {src : Nat} {i : Item} {t l : List Item} {s : State} (h : Doomed own src t (i :: l) s) :
    ∃ s', Doomed own src [] [] s' ∧ ∀ n, exec s (List.replicate (t.length + 1 + l.length + n) .ret) = exec s' (List.replicate n .ret) := by
  obtain ⟨s1, h1, e1⟩ := doomed_run h
  obtain ⟨s2, e2, h2⟩ := doomed_next h1
  obtain ⟨s3, h3, e3⟩ := doomed_run h2
  refine ⟨s3, h3, fun n => ?_⟩
  rw [show t.length + 1 + l.length + n = t.length + (l.length + n + 1) from by omega, e1, List.replicate_succ, exec_snoc e2, e3]

/-- Adding something to the pool which is being deallocated always goes wrong, even if the destroy functions do nothing else and return: the pool is
either deallocated twice, or (if the thread has a main context of its own) leaves its source behind, which uses the pool later. -/
theorem C70_safe_always {s : State} (h : Reach any s) (ha : s.alive = true) (hr : s.refs = 0) :
    ∃ n, (s.own = false → exec s (.add :: List.replicate n .ret) = .error .doubleFree) ∧
      (s.own = true → ∃ s' src, exec s (.add :: List.replicate n .ret) = .ok s' ∧ src ∈ s'.live ∧ ∀ right, step s' (.dispatch src right) = .error .useAfterFree) := by
  have hi := any_inv h
  obtain ⟨⟨t, k⟩, hf, hk⟩ := hi.refs0 ha hr
  obtain ⟨_, hst⟩ := hi.fin _ hf hk
  cases hk
  have hz := hi.refsEq
  rw [hr] at hz
  have hlive : s.live = [] := List.eq_nil_of_length_eq_zero (by omega)
  have hidle : s.idle = none := by
    cases e : s.idle with
    | none => rfl
    | some x => have := (hi.idleIn x e).1; rw [hlive] at this; cases this
  have hs1 : selfs s.items = 0 := by omega
  have hs2 : selfs (rests s.stack) = 0 := by omega
  have hp : ∀ i ∈ t ++ (s.items ++ [⟨s.nextId, false⟩]), i.self = false := by
    intro i him
    rw [hst] at hs2
    simp [selfs, rests, List.countP_eq_zero] at hs1 hs2
    simp at him
    rcases him with him | him | him
    · exact hs2 i him
    · exact hs1 i him
    · rw [him]
  have hadd : ∃ s1, step s .add = .ok s1 ∧ Doomed s.own s.nextSource t (s.items ++ [⟨s.nextId, false⟩]) s1 := by
    refine ⟨{ s with items := s.items ++ [⟨s.nextId, false⟩], last := some s.nextId, nextId := s.nextId + 1, log := s.log ++ [.added s.nextId], idle := some s.nextSource, live := s.live ++ [s.nextSource], nextSource := s.nextSource + 1, refs := s.refs + 1 }, ?_, ⟨ha, rfl, by dsimp only; rw [hr], rfl, by dsimp only; rw [hlive]; rfl, hst, rfl, hp⟩⟩
    show (s.access >>= fun _ => add s false) = _
    rw [access_ok ha, ok_bind, add, append_last hi.sorted hi.lastEq, ok_bind]
    unfold schedule
    dsimp only
    rw [hidle]
  obtain ⟨s1, e1, h1⟩ := hadd
  obtain ⟨i, l, hl⟩ : ∃ i l, s.items ++ [(⟨s.nextId, false⟩ : Item)] = i :: l := by
    cases hh : s.items with
    | nil => exact ⟨_, _, rfl⟩
    | cons a b => exact ⟨_, _, rfl⟩
  rw [hl] at h1
  obtain ⟨s2, h2, e2⟩ := doomed_all h1
  refine ⟨t.length + 1 + l.length + 1, fun ho => ?_, fun ho => ?_⟩
  · rw [exec_snoc e1, e2]
    exact exec_one_error ((doomed_last h2).1 ho)
  · obtain ⟨s3, e3, h3, h4⟩ := (doomed_last h2).2 ho
    refine ⟨s3, s.nextSource, ?_, by rw [h4]; simp, fun right => ?_⟩
    · rw [exec_snoc e1, e2]
      show exec s2 [.ret] = _
      rw [exec_snoc e3]
      rfl
    · show (s3.access >>= _) = _
      unfold State.access
      rw [h3]
      rfl

/-- The last reference is being dropped with two items in the pool, on a thread with the default main context and on another one. -/
example (own : Bool) : ∃ s, Reach any s ∧ s.alive = true ∧ s.refs = 0 ∧ s.own = own ∧ s.stack = [⟨[⟨2, false⟩], .final⟩] := by
  cases own
  · refine ⟨_, reach_exec (P := any) (acts := [.add, .dispatch 1 true, .ret, .add, .add, .dispatch 2 false, .unref]) (fun _ _ _ => trivial) (.new false []) (by decide +kernel) rfl, ?_⟩
    decide +kernel
  · refine ⟨_, reach_exec (P := any) (acts := [.add, .dispatch 1 true, .ret, .add, .add, .dispatch 2 false, .unref]) (fun _ _ _ => trivial) (.new true []) (by decide +kernel) rfl, ?_⟩
    decide +kernel

end Verif.Pool
