import Verif.Proof.IdlePoolObj

/-!
# Objects which are given to the idle pool (C105)

`Reach s`: the state `s` can be reached by a client which follows the rules (`Allowed`): it may create objects, reference them, drop its
own references and pass the objects to the functions of the pool, from anywhere (including destroy functions), and drain the pool,
run the main loop etc. `o.refs` is the reference counter of an object, `o.owned` is how many references the client has,
`s.pending p` is how many times the object is there in the pool, and `s.released` are the objects which have been freed.
-/

namespace Verif.PoolObj
open Verif.C

/-- An object is given to the pool, referenced by the pool once more, and used; another one is given to the pool and stays there,
and an array of strings is given away. Then the pool is drained. -/
def sample : List Act :=
  [.create .object, .give .object (some 0), .use 0, .give .objectRef (some 0), .ref 0, .create .bytes, .give .bytesRef (some 1),
   .create .strv, .give .strv (some 2), .give .variant none, .pool .drain, .use 1, .pool .ret, .use 0, .pool .ret, .pool .ret]

def sampleEnd : M State := exec ⟨Pool.new false [], [], [], []⟩ sample

theorem sample_ok : legal ⟨Pool.new false [], [], [], []⟩ sample = true := by decide +kernel

/-- Nothing undefined ever happens: no object is referenced, used or destroyed after it has been freed, and none is destroyed by
a function which is for another kind of objects. -/
theorem C105_safe {s : State} {a : Act} (h : Reach s) (ha : Allowed s a) : ∃ s', step s a = .ok s' := by
  obtain ⟨s', e, _⟩ := inv_step (reach_inv h) ha
  exact ⟨s', e⟩

/-- Every reference belongs either to the client or to the pool, which has one for each time the object has been added. -/
theorem C105_refs {s : State} (h : Reach s) (p : Nat) (o : Obj) (ho : s.objs[p]? = some o) : o.refs = o.owned + s.pending p :=
  (reach_inv h).acc.refs p o ho

/-- An object is freed (once) when neither the client nor the pool has references to it, and not before that. -/
theorem C105_released {s : State} (h : Reach s) (p : Nat) (o : Obj) (ho : s.objs[p]? = some o) :
    s.released.count p = if o.owned = 0 ∧ s.pending p = 0 then 1 else 0 := by
  rw [(reach_inv h).acc.rel p o ho, C105_refs h p o ho]
  by_cases h1 : o.owned = 0 <;> by_cases h2 : s.pending p = 0 <;> simp [h1, h2]

/-- These functions do nothing if there's no object, and return nothing. -/
theorem C105_null (f : Fn) (s : State) : f.call s none = .ok (s, none) := by
  cases f <;> rfl

/-- They return the object which they are given. -/
theorem C105_returns {f : Fn} {s s' : State} {p r : Option Nat} (h : f.call s p = .ok (s', r)) : r = p := by
  cases p with
  | none =>
    rw [C105_null] at h
    cases h
    rfl
  | some p =>
    obtain ⟨_, _, _, rfl⟩ := call_inv h
    rfl

/-- The object is there in the pool, once more than it was before, and nothing else is added. Nothing is freed. The reference is taken
from the caller, except if that's one of the functions which add a reference. -/
theorem C105_given {s s' : State} {f : Fn} {p : Nat} (h : Reach s) (ha : Allowed s (.give f (some p))) (hs : step s (.give f (some p)) = .ok s') :
    (∀ q, s'.pending q = s.pending q + if q = p then 1 else 0) ∧ s'.released = s.released ∧
    ∀ (q : Nat) (o : Obj), s.objs[q]? = some o → ∃ o', s'.objs[q]? = some o' ∧ o'.kind = o.kind ∧
      o'.owned = if q = p ∧ f.isRef = false then o.owned - 1 else o.owned := by
  obtain ⟨⟨s2, r⟩, hc, hs⟩ := Pool.bind_ok hs
  cases hs
  obtain ⟨s1, h1, h2, rfl⟩ := call_inv hc
  obtain ⟨pool', hp, rfl, _⟩ := add_inv h2
  have hD : s.pool.nextId ∉ Pool.destroys s.pool.log := by
    intro hm
    have := (Pool.any_inv (reach_inv h).pool).hist.mem s.pool.nextId
    have := this.2 (.inl hm)
    omega
  have key : s1.pool = s.pool → s1.data = s.data → ∀ q,
      State.pending { s1 with pool := pool', data := s1.data ++ [(s1.pool.nextId, p, f.kind)] } q = s.pending q + if q = p then 1 else 0 := by
    intro e1 e2 q
    unfold State.pending
    dsimp only
    rw [(Pool.add_log hp).1, e1, e2, List.countP_append]
    have e : Pool.destroys (s.pool.log ++ [.added s.pool.nextId]) = Pool.destroys s.pool.log := by simp [Pool.destroys]
    rw [e]
    congr 1
    by_cases hq : q = p
    · simp [hq, hD]
    · have : ¬ p = q := fun e => hq e.symm
      simp [hq, this]
  cases hf : f.isRef with
  | false =>
    rw [hf] at h1
    simp only [Bool.false_eq_true, if_false] at h1
    subst h1
    refine ⟨key rfl rfl, rfl, ?_⟩
    intro q o ho
    dsimp only
    rw [own_get]
    by_cases hq : q = p
    · subst hq
      rw [if_pos rfl, ho]
      exact ⟨_, rfl, rfl, by simp⟩
    · rw [if_neg (fun e => hq e.symm)]
      exact ⟨o, ho, rfl, by simp [hq]⟩
  | true =>
    rw [hf] at h1
    simp only [if_true] at h1
    obtain ⟨o1, ho1, rfl⟩ := ref_inv h1
    refine ⟨key rfl rfl, rfl, ?_⟩
    intro q o ho
    dsimp only
    rw [get_set ho1]
    by_cases hq : p = q
    · subst hq
      rw [if_pos rfl]
      rw [ho1] at ho
      cases ho
      exact ⟨_, rfl, rfl, by simp⟩
    · rw [if_neg hq]
      exact ⟨o, ho, rfl, by simp⟩

theorem pending_zero {s : State} (h : Reach s) (hd : ∀ id ∈ Pool.adds s.pool.log, (Pool.destroys s.pool.log).count id = 1) (p : Nat) :
    s.pending p = 0 := by
  have h0 := reach_inv h
  unfold State.pending
  rw [List.countP_eq_zero]
  intro e he
  have h1 := h0.acc.lt e he
  have h2 : e.1 ∈ Pool.adds s.pool.log := by
    rw [(Pool.any_inv h0.pool).hist.adds]
    exact List.mem_range.2 h1
  have h3 := hd _ h2
  have h4 : e.1 ∈ Pool.destroys s.pool.log := List.count_pos_iff.1 (by omega)
  simp [h4]

/-- Nothing is left there after the pool has been drained (or destroyed, or the idle source has been dispatched) and all the destroy
functions have returned. -/
theorem C105_drained {s s' : State} {a : Pool.Act} (h : Reach s) (ha : Allowed s (.pool a)) (hs : step s (.pool a) = .ok s')
    (he : s'.pool.stack = []) (hd : a = .drain ∨ a = .destroy ∨ (∃ src, a = .dispatch src true) ∨ a = .ret) (p : Nat) : s'.pending p = 0 := by
  have h0 := reach_inv h
  obtain ⟨s2, e, _, h2⟩ := inv_run h0.pool ha (fun pool' e => by
    refine { h0.acc with lt := fun x hx => ?_ }
    exact Nat.lt_of_lt_of_le (h0.acc.lt x hx) (nextId_le h0.pool (h0.pool.step ha trivial e) (Pool.grow_step e)))
  have hs' : run s a = .ok s' := hs
  rw [e] at hs'
  cases hs'
  exact pending_zero (h.step ha hs) (Pool.C70_empty h0.pool ha h2 he hd).2 p

/-- Nothing is left there after the pool has been deallocated. -/
theorem C105_deallocated {s : State} (h : Reach s) (hd : s.pool.alive = false) (p : Nat) : s.pending p = 0 :=
  pending_zero h (fun id hid => Pool.C70_deallocated (reach_inv h).pool hd id hid) p

theorem sample_reach : ∃ s, Reach s ∧ sampleEnd = .ok s := by
  have h : ∃ s, sampleEnd = .ok s := by
    have : sampleEnd.toOption.isSome = true := by decide +kernel
    revert this
    cases sampleEnd with
    | error => simp [Except.toOption]
    | ok s => exact fun _ => ⟨s, rfl⟩
  obtain ⟨s, e⟩ := h
  exact ⟨s, reach_exec (.new (.new false [])) sample_ok e, e⟩

/-- The client still has references to the first two objects, and the array of strings is gone. -/
example : ∃ s, Reach s ∧ s.objs = [⟨.object, 1, 1⟩, ⟨.bytes, 1, 1⟩, ⟨.strv, 0, 0⟩] ∧ s.released = [2] := by
  obtain ⟨s, h, e⟩ := sample_reach
  have : (sampleEnd.toOption.map (fun s => (s.objs, s.released))) = some ([⟨.object, 1, 1⟩, ⟨.bytes, 1, 1⟩, ⟨.strv, 0, 0⟩], [2]) := by decide +kernel
  rw [e] at this
  simp only [Except.toOption, Option.map_some, Option.some.injEq, Prod.mk.injEq] at this
  exact ⟨s, h, this.1, this.2⟩

/-- This object has no references which belong to the client, and it hasn't been released. -/
example : ∃ s, Reach s ∧ s.objs = [⟨.object, 1, 0⟩] ∧ s.pending 0 = 1 ∧ Allowed s (.give .objectRef (some 0)) ∧ s.pool.stack = [] ∧
    Allowed s (.pool .drain) :=
  ⟨_, reach_exec (acts := [.create .object, .give .object (some 0)]) (.new (.new false [])) (by decide +kernel)
    (s' := ⟨⟨true, 2, 1, some 1, [⟨0, false⟩], some 0, false, .null, [1], false, [], 2, 1, [], [.added 0]⟩, [⟨.object, 1, 0⟩], [(0, 0, .object)], []⟩)
    (by decide +kernel), rfl, by decide +kernel, by decide +kernel, rfl, by decide +kernel⟩

theorem destroy_owned {s s' : State} {id : Nat} (h : destroy s id = .ok s') :
    s'.data = s.data ∧ s'.pool = s.pool ∧ ∀ q : Nat, (s'.objs[q]?).map (fun o => (o.kind, o.owned)) = (s.objs[q]?).map (fun o => (o.kind, o.owned)) := by
  unfold destroy at h
  split at h
  · cases h; exact ⟨rfl, rfl, fun _ => rfl⟩
  · unfold unref at h
    split at h
    · cases h
    · rename_i o ho
      split at h
      · cases h
      · split at h
        · cases h
        · cases h
          refine ⟨rfl, rfl, fun q => ?_⟩
          dsimp only
          rw [get_set ho]
          split
          · next e => rw [← e, ho]; rfl
          · rfl

theorem destroyAll_owned : ∀ {l : List Nat} {s s' : State}, destroyAll s l = .ok s' →
    s'.data = s.data ∧ s'.pool = s.pool ∧ ∀ q : Nat, (s'.objs[q]?).map (fun o => (o.kind, o.owned)) = (s.objs[q]?).map (fun o => (o.kind, o.owned)) := by
  intro l
  induction l with
  | nil => intro s s' h; cases h; exact ⟨rfl, rfl, fun _ => rfl⟩
  | cons id t ih =>
    intro s s' h
    obtain ⟨s1, h1, h⟩ := Pool.bind_ok h
    obtain ⟨a1, a2, a3⟩ := destroy_owned h1
    obtain ⟨b1, b2, b3⟩ := ih h
    exact ⟨b1.trans a1, b2.trans a2, fun q => (b3 q).trans (a3 q)⟩

/-- How many references to the object belong to the client -/
def State.owned (s : State) (p : Nat) : Nat := (s.objs[p]?.map (·.owned)).getD 0

/-- The references of the client: one for a new object, one more or less after it's been referenced or dereferenced by the client. Whatever the pool does, it doesn't touch these, nor does anything
else. Giving objects to the pool is `C105_given`. -/
theorem C105_owned {s s' : State} {a : Act} (ha : Allowed s a) (hs : step s a = .ok s') (hg : ∀ f p, a ≠ .give f p) (q : Nat) :
    s'.owned q = match a with
      | .create _ => if q = s.objs.length then 1 else s.owned q
      | .ref p => if q = p then s.owned q + 1 else s.owned q
      | .unref p => if q = p then s.owned q - 1 else s.owned q
      | _ => s.owned q := by
  cases a with
  | pool a =>
    have hs : run s a = .ok s' := hs
    obtain ⟨pool', _, hs⟩ := Pool.bind_ok hs
    have h := (destroyAll_owned hs).2.2 q
    unfold State.owned
    dsimp only
    have e : ∀ x : Option Obj, x.map (·.owned) = (x.map (fun o => (o.kind, o.owned))).map (·.2) := fun x => by cases x <;> rfl
    rw [e, h, ← e]
  | create k =>
    cases hs
    unfold State.owned
    dsimp only
    rw [List.getElem?_append]
    by_cases h1 : q < s.objs.length
    · rw [if_pos h1, if_neg (by omega)]
    · rw [if_neg h1]
      by_cases h2 : q = s.objs.length
      · subst h2; simp
      · rw [if_neg h2, List.getElem?_eq_none (by simp; omega), List.getElem?_eq_none (by omega)]
  | ref p =>
    obtain ⟨o, ho, _⟩ := ha
    simp only [step, ho] at hs
    have ho : s.objs[p]? = some o := ho
    simp only [ho] at hs
    obtain ⟨o1, ho1, rfl⟩ := ref_inv hs
    have h1 := own_get (s := s) (p := p) (f := (· + 1))
    rw [h1 p, if_pos rfl, ho] at ho1
    cases ho1
    unfold State.owned
    dsimp only
    rw [get_set (by rw [h1 p, if_pos rfl, ho]; rfl)]
    by_cases hq : q = p
    · subst hq; simp [ho]
    · rw [if_neg (fun e => hq e.symm), if_neg hq, h1 q, if_neg (fun e => hq e.symm)]
  | unref p =>
    obtain ⟨o, ho, _⟩ := ha
    have ho : s.objs[p]? = some o := ho
    simp only [step, ho] at hs
    have h1 := own_get (s := s) (p := p) (f := (· - 1))
    unfold unref at hs
    rw [h1 p, if_pos rfl, ho] at hs
    dsimp only [Option.map_some] at hs
    split at hs
    · cases hs
    · split at hs
      · cases hs
      · cases hs
        unfold State.owned
        dsimp only
        rw [get_set (o := { o with owned := o.owned - 1 }) (by rw [h1 p, if_pos rfl, ho]; rfl)]
        by_cases hq : q = p
        · subst hq; simp [ho]
        · rw [if_neg (fun e => hq e.symm), if_neg hq, h1 q, if_neg (fun e => hq e.symm)]
  | use p =>
    simp only [step] at hs
    split at hs
    · cases hs
    · split at hs
      · cases hs
      · cases hs; rfl
  | give f p => exact absurd rfl (hg f p)

/-- Nothing is added to the pool, or taken from it, by anything but `C105_given` and what's done to the pool itself. -/
theorem C105_pool {s s' : State} {a : Act} (hs : step s a = .ok s') (hg : ∀ f p, a ≠ .give f p) :
    s'.data = s.data ∧ match a with
      | .pool b => Pool.step s.pool b = .ok s'.pool
      | _ => s'.pool = s.pool := by
  cases a with
  | pool b =>
    have hs : run s b = .ok s' := hs
    obtain ⟨pool', h1, hs⟩ := Pool.bind_ok hs
    obtain ⟨h2, h3, _⟩ := destroyAll_owned hs
    dsimp only
    rw [h3]
    exact ⟨h2, h1⟩
  | create k => cases hs; exact ⟨rfl, rfl⟩
  | ref p =>
    simp only [step] at hs
    split at hs
    · cases hs
    · obtain ⟨o1, ho1, rfl⟩ := ref_inv hs
      exact ⟨rfl, rfl⟩
  | unref p =>
    simp only [step] at hs
    split at hs
    · cases hs
    · unfold unref at hs
      repeat' split at hs
      all_goals cases hs
      all_goals exact ⟨rfl, rfl⟩
  | use p =>
    simp only [step] at hs
    repeat' split at hs
    all_goals cases hs
    all_goals exact ⟨rfl, rfl⟩
  | give f p => exact absurd rfl (hg f p)

example : ∃ s s', Reach s ∧ Allowed s (.unref 0) ∧ step s (.unref 0) = .ok s' ∧ s.owned 0 = 2 ∧ s'.owned 0 = 1 ∧ s'.pending 0 = 1 ∧ s'.released = [] :=
  ⟨_, _, reach_exec (acts := [.create .object, .give .objectRef (some 0), .ref 0]) (.new (.new false [])) (by decide +kernel)
    (s' := ⟨⟨true, 2, 1, some 1, [⟨0, false⟩], some 0, false, .null, [1], false, [], 2, 1, [], [.added 0]⟩, [⟨.object, 3, 2⟩], [(0, 0, .object)], []⟩)
    (by decide +kernel), by decide +kernel, rfl, by decide +kernel, by decide +kernel, by decide +kernel, by decide +kernel⟩

end Verif.PoolObj
