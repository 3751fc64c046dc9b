import Verif.Model.IdlePoolDefault
import Verif.Proof.IdlePoolRefs

namespace Verif.PoolDefault
open Verif.C

theorem promised_eq (st : List Pool.Frame) : promised st = Pool.drops st := by
  induction st with
  | nil => rfl
  | cons f st ih =>
    obtain ⟨rest, k⟩ := f
    have e : Pool.drops (⟨rest, k⟩ :: st) = k.drops + Pool.drops st := rfl
    rw [e, ← ih]
    unfold promised
    rw [List.filter_cons]
    cases k <;> simp [Pool.Cont.drops, Nat.add_comm]

/-- What's true of the states. -/
structure Inv (s : State) : Prop where
  pools : ∀ (p : Nat) (x : Pool.State), s.pools[p]? = some x → Pool.Reach Pool.any x
  held : ∀ (t p : Nat), s.priv t = some p → ∃ x, s.pools[p]? = some x ∧ promised x.stack + 1 ≤ x.owned
  inj : ∀ t u p, s.priv t = some p → s.priv u = some p → t = u
  known : ∀ t p, s.priv t = some p ↔ Current s.hist t p
  old : ∀ t p, .got t p ∈ s.hist → p < s.pools.length
  one : ∀ t u p, .got t p ∈ s.hist → .got u p ∈ s.hist → t = u
  once : ∀ pre post t p, s.hist = pre ++ .exits t :: post → .got t p ∈ pre → .got t p ∉ post
  same : ∀ pre post t p q, s.hist = pre ++ .got t q :: post → Current pre t p → q = p

theorem current_nil (t p : Nat) : ¬ Current [] t p := by
  rintro ⟨pre, post, h, _⟩
  simp at h

theorem current_snoc {h : List Event} {e : Event} {t p : Nat} :
    Current (h ++ [e]) t p ↔ e = .got t p ∨ (Current h t p ∧ e ≠ .exits t) := by
  constructor
  · rintro ⟨pre, post, hh, hn⟩
    rcases List.eq_nil_or_concat post with rfl | ⟨post', e', rfl⟩
    · have := List.append_inj' hh rfl
      left
      injection this.2
    · right
      rw [List.concat_eq_append] at hh hn
      rw [← List.cons_append, ← List.append_assoc] at hh
      have := List.append_inj' hh rfl
      injection this.2 with h2
      subst h2
      refine ⟨⟨pre, post', this.1, fun h => hn (by simp [h])⟩, fun h => hn (by simp [h])⟩
  · rintro (rfl | ⟨⟨pre, post, rfl, hn⟩, he⟩)
    · exact ⟨h, [], rfl, by simp⟩
    · exact ⟨pre, post ++ [e], by simp, by simp [hn, Ne.symm he]⟩

theorem inv_init : Inv init := by
  constructor
  · intro p x h; simp [init] at h
  · intro t p h; simp [init] at h
  · intro t u p h; simp [init] at h
  · intro t p
    constructor
    · intro h; cases h
    · intro h; exact absurd h (current_nil t p)
  · intro t p h; simp [init] at h
  · intro t u p h; simp [init] at h
  · intro pre post t p h; simp [init] at h
  · intro pre post t p q h; simp [init] at h

theorem snoc_split {h pre post : List Event} {e x : Event} (hh : h ++ [e] = pre ++ x :: post) :
    (e = x ∧ pre = h ∧ post = []) ∨ ∃ post', post = post' ++ [e] ∧ h = pre ++ x :: post' := by
  rcases List.eq_nil_or_concat post with rfl | ⟨post', e', rfl⟩
  · have := List.append_inj' hh rfl
    injection this.2 with h2
    exact .inl ⟨h2, this.1.symm, rfl⟩
  · rw [List.concat_eq_append] at hh ⊢
    rw [← List.cons_append, ← List.append_assoc] at hh
    have := List.append_inj' hh rfl
    injection this.2 with h2
    subst h2
    exact .inr ⟨post', rfl, this.1⟩

/-- The pool being returned is either the current one or a new one. -/
theorem inv_get {s : State} (h : Inv s) (t : Nat) (own : Bool) (foreign : List Nat) :
    Inv (getDefault s t own foreign).1 ∧ (getDefault s t own foreign).1.priv t = some (getDefault s t own foreign).2 ∧
      (∀ u, u ≠ t → (getDefault s t own foreign).1.priv u = s.priv u) := by
  unfold getDefault
  split
  · rename_i p hp
    obtain ⟨x, hx, ho⟩ := h.held t p hp
    have hlt : p < s.pools.length := (List.getElem?_eq_some_iff.1 hx).1
    refine ⟨⟨h.pools, h.held, h.inj, ?_, ?_, ?_, ?_, ?_⟩, hp, fun _ _ => rfl⟩
    · intro u q
      dsimp only [State.note]
      rw [current_snoc, ← h.known]
      constructor
      · intro hu; exact .inr ⟨hu, by simp⟩
      · rintro (e | e)
        · injection e with e1 e2; subst e1; subst e2; exact hp
        · exact e.1
    · intro u q hq
      dsimp only [State.note] at hq ⊢
      rw [List.mem_append, List.mem_singleton] at hq
      rcases hq with hq | hq
      · exact h.old u q hq
      · injection hq with e1 e2; subst e2; exact hlt
    · intro u v q hu hv
      have hc : Event.got t p ∈ s.hist := by
        obtain ⟨pre, post, e, _⟩ := (h.known t p).1 hp
        rw [e]; simp
      dsimp only [State.note] at hu hv
      rw [List.mem_append, List.mem_singleton] at hu hv
      rcases hu with hu | hu <;> rcases hv with hv | hv
      · exact h.one u v q hu hv
      · injection hv with e1 e2; subst e1; subst e2; exact h.one _ _ _ hu hc
      · injection hu with e1 e2; subst e1; subst e2; exact h.one _ _ _ hc hv
      · injection hu with e1 e2; injection hv with e3 e4; rw [e1, e3]
    · intro pre post u q hh hq
      dsimp only [State.note] at hh
      rcases snoc_split hh with ⟨e, _, _⟩ | ⟨post', rfl, hh'⟩
      · cases e
      · have h1 := h.once pre post' u q hh' hq
        rw [List.mem_append, List.mem_singleton]
        rintro (h2 | h2)
        · exact h1 h2
        · injection h2 with e1 e2
          subst e1; subst e2
          -- the current one has been got after the exit
          obtain ⟨pre2, post2, e, hn⟩ := (h.known u q).1 hp
          rw [hh'] at e
          rcases List.append_eq_append_iff.1 e with ⟨as, e1, e2⟩ | ⟨bs, e1, e2⟩
          · cases as with
            | nil => simp at e2
            | cons a as =>
              injection e2 with e2 e3
              exact h1 (by rw [e3]; simp)
          · cases bs with
            | nil => simp at e2
            | cons b bs =>
              injection e2 with e2 e3
              exact hn (by rw [e3]; simp)
    · intro pre post u q r hh hc
      dsimp only [State.note] at hh
      rcases snoc_split hh with ⟨e, rfl, rfl⟩ | ⟨post', rfl, hh'⟩
      · injection e with e1 e2
        subst e1; subst e2
        rw [← h.known, hp] at hc
        injection hc
      · exact h.same pre post' u q r hh' hc
  · rename_i hp
    dsimp only
    have hne : ∀ u q, s.priv u = some q → q < s.pools.length := by
      intro u q hq
      obtain ⟨x, hx, _⟩ := h.held u q hq
      exact (List.getElem?_eq_some_iff.1 hx).1
    refine ⟨⟨?_, ?_, ?_, ?_, ?_, ?_, ?_, ?_⟩, by simp [State.note, State.setPriv], ?_⟩
    · intro q x hx
      dsimp only [State.note, State.setPriv] at hx
      rw [List.getElem?_append] at hx
      split at hx
      · exact h.pools q x hx
      · rw [List.getElem?_singleton] at hx
        split at hx
        · cases hx; exact .new own foreign
        · cases hx
    · intro u q hu
      dsimp only [State.note, State.setPriv] at hu ⊢
      split at hu
      · injection hu with hu
        subst hu
        exact ⟨Pool.new own foreign, by simp, by simp [Pool.new, promised]⟩
      · obtain ⟨x, hx, ho⟩ := h.held u q hu
        exact ⟨x, by rw [List.getElem?_append_left (hne u q hu)]; exact hx, ho⟩
    · intro u v q hu hv
      dsimp only [State.note, State.setPriv] at hu hv
      split at hu <;> split at hv
      · rename_i e1 e2; rw [e1, e2]
      · have := hne v q hv; injection hu with hu; omega
      · have := hne u q hu; injection hv with hv; omega
      · exact h.inj u v q hu hv
    · intro u q
      dsimp only [State.note, State.setPriv]
      rw [current_snoc, ← h.known]
      split
      · rename_i e
        subst e
        constructor
        · intro hq; injection hq with hq; subst hq; exact .inl rfl
        · rintro (e | e)
          · injection e with _ e; rw [e]
          · rw [hp] at e; cases e.1
      · rename_i e
        constructor
        · intro hq; exact .inr ⟨hq, by simp⟩
        · rintro (e2 | e2)
          · injection e2 with e3 _; exact absurd e3.symm e
          · exact e2.1
    · intro u q hq
      dsimp only [State.note, State.setPriv] at hq ⊢
      rw [List.mem_append, List.mem_singleton] at hq
      rw [List.length_append, List.length_singleton]
      rcases hq with hq | hq
      · have := h.old u q hq; omega
      · injection hq with _ e2; omega
    · intro u v q hu hv
      dsimp only [State.note, State.setPriv] at hu hv
      rw [List.mem_append, List.mem_singleton] at hu hv
      rcases hu with hu | hu <;> rcases hv with hv | hv
      · exact h.one u v q hu hv
      · have := h.old u q hu; injection hv with _ e2; omega
      · have := h.old v q hv; injection hu with _ e2; omega
      · injection hu with e1 e2; injection hv with e3 e4; rw [e1, e3]
    · intro pre post u q hh hq
      dsimp only [State.note, State.setPriv] at hh
      rcases snoc_split hh with ⟨e, _, _⟩ | ⟨post', rfl, hh'⟩
      · cases e
      · have h1 := h.once pre post' u q hh' hq
        rw [List.mem_append, List.mem_singleton]
        rintro (h2 | h2)
        · exact h1 h2
        · have := h.old u q (by rw [hh']; simp [hq])
          injection h2 with _ e2
          omega
    · intro pre post u q r hh hc
      dsimp only [State.note, State.setPriv] at hh
      rcases snoc_split hh with ⟨e, rfl, rfl⟩ | ⟨post', rfl, hh'⟩
      · injection e with e1 e2
        subst e1
        rw [← h.known, hp] at hc
        cases hc
      · exact h.same pre post' u q r hh' hc
    · intro u hu
      simp [State.note, State.setPriv, hu]

/-- Something is done to the pool which doesn't affect the reference of the thread. -/
theorem inv_onPool {s : State} {p : Nat} {x : Pool.State} {a : Pool.Act} (h : Inv s) (hx : s.pools[p]? = some x) (ha : Pool.Allowed x a)
    (hr : a = .unref ∨ a = .destroy → ∀ t, s.priv t = some p → promised x.stack + 2 ≤ x.owned) :
    ∃ x', Pool.step x a = .ok x' ∧ onPool s p a = .ok { s with pools := s.pools.set p x' } ∧ Inv { s with pools := s.pools.set p x' } := by
  have hxr := h.pools p x hx
  obtain ⟨x', e⟩ := Pool.C70_safe_partial hxr ha
  have hlt : p < s.pools.length := (List.getElem?_eq_some_iff.1 hx).1
  refine ⟨x', e, by unfold onPool; rw [hx]; dsimp only; rw [e, ok_bind], ?_, ?_, h.inj, h.known, ?_, h.one, h.once, h.same⟩
  · intro q y hy
    dsimp only at hy
    rw [List.getElem?_set] at hy
    split at hy
    · cases hy
      exact hxr.step ha trivial e
    · exact h.pools q y hy
  · intro t q hq
    obtain ⟨y, hy, ho⟩ := h.held t q hq
    dsimp only
    rw [List.getElem?_set]
    by_cases hpq : p = q
    · subst hpq
      rw [if_pos rfl, if_pos hlt]
      refine ⟨x', rfl, ?_⟩
      rw [hx] at hy
      cases hy
      have h1 := Pool.step_owned (Pool.any_inv hxr).needOk ha e
      rw [← promised_eq, ← promised_eq] at h1
      have h2 : Pool.dropped a = 0 ∨ (Pool.dropped a = 1 ∧ promised x.stack + 2 ≤ x.owned) := by
        cases a with
        | unref => exact .inr ⟨rfl, hr (.inl rfl) t hq⟩
        | destroy => exact .inr ⟨rfl, hr (.inr rfl) t hq⟩
        | _ => exact .inl rfl
      omega
    · rw [if_neg hpq]
      exact ⟨y, hy, ho⟩
  · intro t q hq
    dsimp only
    rw [List.length_set]
    exact h.old t q hq

theorem inv_exit {s : State} (h : Inv s) (t : Nat) : Inv ((s.setPriv t none).note (.exits t)) := by
  refine ⟨h.pools, ?_, ?_, ?_, ?_, ?_, ?_, ?_⟩
  · intro u q hu
    dsimp only [State.note, State.setPriv] at hu ⊢
    split at hu
    · cases hu
    · exact h.held u q hu
  · intro u v q hu hv
    dsimp only [State.note, State.setPriv] at hu hv
    split at hu
    · cases hu
    · split at hv
      · cases hv
      · exact h.inj u v q hu hv
  · intro u q
    dsimp only [State.note, State.setPriv]
    rw [current_snoc, ← h.known]
    split
    · rename_i e
      subst e
      constructor
      · intro hq; cases hq
      · rintro (e | e)
        · cases e
        · exact absurd rfl e.2
    · rename_i e
      constructor
      · intro hq; exact .inr ⟨hq, by intro e2; injection e2 with e2; exact e e2.symm⟩
      · rintro (e2 | e2)
        · cases e2
        · exact e2.1
  · intro u q hq
    dsimp only [State.note, State.setPriv] at hq ⊢
    rw [List.mem_append, List.mem_singleton] at hq
    rcases hq with hq | hq
    · exact h.old u q hq
    · cases hq
  · intro u v q hu hv
    dsimp only [State.note, State.setPriv] at hu hv
    rw [List.mem_append, List.mem_singleton] at hu hv
    rcases hu with hu | hu
    · rcases hv with hv | hv
      · exact h.one u v q hu hv
      · cases hv
    · cases hu
  · intro pre post u q hh hq
    dsimp only [State.note, State.setPriv] at hh
    rcases snoc_split hh with ⟨_, _, rfl⟩ | ⟨post', rfl, hh'⟩
    · simp
    · have h1 := h.once pre post' u q hh' hq
      rw [List.mem_append, List.mem_singleton]
      rintro (h2 | h2)
      · exact h1 h2
      · cases h2
  · intro pre post u q r hh hc
    dsimp only [State.note, State.setPriv] at hh
    rcases snoc_split hh with ⟨e, _, _⟩ | ⟨post', rfl, hh'⟩
    · cases e
    · exact h.same pre post' u q r hh' hc

theorem setPriv_same {s : State} {t : Nat} (h : s.priv t = none) : s.setPriv t none = s := by
  unfold State.setPriv
  have : (fun u => if u = t then none else s.priv u) = s.priv := by
    funext u
    split
    · rename_i e; rw [e, h]
    · rfl
  rw [this]

/-- The pool of the thread can be used by it. -/
theorem Inv.own {s : State} (h : Inv s) {t p : Nat} (hp : s.priv t = some p) :
    ∃ x, s.pools[p]? = some x ∧ 0 < x.refs ∧ x.alive = true ∧ Pool.Allowed x .add ∧ Pool.Allowed x .drain ∧ 1 + promised x.stack ≤ x.owned := by
  obtain ⟨x, hx, ho⟩ := h.held t p hp
  have h1 := Pool.any_inv (h.pools p x hx)
  have h2 := h1.refsEq
  have h3 := h1.needOk
  have h4 : 0 < x.refs := by omega
  refine ⟨x, hx, h4, h1.alive (.inr h4), h4, ?_, by omega⟩
  show max 1 (Pool.need x.stack) ≤ x.owned
  omega

theorem inv_step {s : State} {a : Act} (h : Inv s) (ha : Allowed s a) : ∃ s', step s a = .ok s' ∧ Inv s' := by
  cases a with
  | getDefault t own foreign => exact ⟨_, rfl, (inv_get h t own foreign).1⟩
  | add t own foreign =>
    obtain ⟨h1, h2, _⟩ := inv_get h t own foreign
    obtain ⟨x, hx, _, _, hb, _, _⟩ := h1.own h2
    obtain ⟨x', _, e, h3⟩ := inv_onPool h1 hx hb (by rintro (e | e) <;> cases e)
    exact ⟨_, e, h3⟩
  | drain t own foreign =>
    obtain ⟨h1, h2, _⟩ := inv_get h t own foreign
    obtain ⟨x, hx, _, _, _, hb, _⟩ := h1.own h2
    obtain ⟨x', _, e, h3⟩ := inv_onPool h1 hx hb (by rintro (e | e) <;> cases e)
    exact ⟨_, e, h3⟩
  | pool p a =>
    obtain ⟨x, hx, hb, hr⟩ := ha
    obtain ⟨x', _, e, h3⟩ := inv_onPool h hx hb hr
    exact ⟨_, e, h3⟩
  | new own foreign =>
    refine ⟨_, rfl, ?_, ?_, h.inj, h.known, ?_, h.one, h.once, h.same⟩
    · intro q x hx
      dsimp only at hx
      rw [List.getElem?_append] at hx
      split at hx
      · exact h.pools q x hx
      · rw [List.getElem?_singleton] at hx
        split at hx
        · cases hx; exact .new own foreign
        · cases hx
    · intro u q hu
      obtain ⟨x, hx, ho⟩ := h.held u q hu
      exact ⟨x, by dsimp only; rw [List.getElem?_append_left (List.getElem?_eq_some_iff.1 hx).1]; exact hx, ho⟩
    · intro u q hq
      have := h.old u q hq
      dsimp only
      rw [List.length_append]
      omega
  | exit t =>
    have h1 := inv_exit h t
    unfold step exit
    dsimp only
    split
    · rename_i hp
      rw [setPriv_same hp] at h1
      exact ⟨_, rfl, h1⟩
    · rename_i p hp
      obtain ⟨x, hx, ho⟩ := h.held t p hp
      have hs : x.stack = [] := ha p x hp hx
      obtain ⟨x', _, e, h3⟩ := inv_onPool (a := .unref) h1 hx (by
        show Pool.need x.stack + 1 ≤ x.owned
        rw [hs] at ho ⊢
        exact ho) (by
        intro _ u hu
        dsimp only [State.note, State.setPriv] at hu
        split at hu
        · cases hu
        · rename_i hne
          exact absurd (h.inj u t p hu hp) hne)
      exact ⟨_, e, h3⟩

theorem reach_inv {s : State} (h : Reach s) : Inv s := by
  induction h with
  | init => exact inv_init
  | step _ ha hs ih =>
    obtain ⟨s', e, h1⟩ := inv_step ih ha
    rw [e] at hs
    cases hs
    exact h1

end Verif.PoolDefault
