import Verif.Model.WeakRef

namespace Verif.Weak
open Verif.C

def weight (o : Nat) : Event → Int
  | .create x | .ref x => if x = o then 1 else 0
  | .got x => if x = some o then 1 else 0
  | .unref x => if x = o then -1 else 0
  | .set _ => 0

theorem strong_snoc (o : Nat) (log : List Event) (e : Event) : strong o (log ++ [e]) = strong o log + weight o e := by
  induction log with
  | nil => cases e <;> simp [strong, weight]
  | cons x t ih => cases x <;> simp [strong, ih, Int.add_assoc]

theorem lastSet_snoc (log : List Event) (e : Event) :
    lastSet (log ++ [e]) = match e with | .set o => o | _ => lastSet log := by
  unfold lastSet
  rw [List.filterMap_append]
  cases e <;> simp

structure Inv (s : State) : Prop where
  count : ∀ o, (s.objs.getD o 0 : Int) = strong o s.log
  refsEq : s.refs = s.owned
  aliveIff : s.alive = true ↔ 0 < s.owned
  dead : s.alive = false → s.target = none
  last : s.alive = true → ∀ o, s.target = some o ↔ lastSet s.log = some o ∧ 0 < s.objs.getD o 0
  known : ∀ o, lastSet s.log = some o → o < s.objs.length

theorem getD_set {l : List Nat} {x v o : Nat} (hx : x < l.length) : (l.set x v).getD o 0 = if o = x then v else l.getD o 0 := by
  rw [List.getD_eq_getElem?_getD, List.getElem?_set]
  by_cases h : o = x
  · subst h
    simp [hx]
  · rw [if_neg (fun e => h e.symm), if_neg h, List.getD_eq_getElem?_getD]

theorem getD_concat {l : List Nat} {v o : Nat} : (l ++ [v]).getD o 0 = if o = l.length then v else l.getD o 0 := by
  rw [List.getD_eq_getElem?_getD, List.getD_eq_getElem?_getD, List.getElem?_append]
  by_cases h : o < l.length
  · rw [if_pos h, if_neg (by omega)]
  · rw [if_neg h]
    by_cases h1 : o = l.length
    · simp [h1]
    · rw [if_neg h1, List.getElem?_eq_none (by simp; omega), List.getElem?_eq_none (by omega)]

theorem pos_getD {l : List Nat} {x : Nat} (h : 0 < l.getD x 0) : ∃ n, l[x]? = some (n + 1) ∧ x < l.length ∧ l.getD x 0 = n + 1 := by
  rw [List.getD_eq_getElem?_getD] at h ⊢
  cases hx : l[x]? with
  | none => rw [hx] at h; simp at h
  | some m =>
    rw [hx] at h
    have h : 0 < m := h
    have h1 := (List.getElem?_eq_some_iff.1 hx).1
    refine ⟨m - 1, ?_, h1, ?_⟩
    · congr 1
      omega
    · show m = m - 1 + 1
      omega

theorem strong_create (n x : Nat) :
    (((List.replicate n 1 : List Nat).getD x 0 : Nat) : Int) = strong x ((List.range n).map Event.create) := by
  induction n with
  | zero => rfl
  | succ n ih =>
    have e : (List.replicate (n + 1) 1 : List Nat) = List.replicate n 1 ++ [1] := List.replicate_succ'
    rw [e, getD_concat, List.range_succ, List.map_append, List.map_singleton, strong_snoc, ← ih]
    simp only [weight, List.length_replicate]
    by_cases h : x = n
    · subst h
      simp
    · rw [if_neg h, if_neg (fun e => h e.symm)]
      omega

theorem inv_new {n : Nat} {o : Option Nat} (ho : ∀ x, o = some x → x < n) :
    ∃ s, new (List.replicate n 1) ((List.range n).map Event.create) o = .ok s ∧ Inv s := by
  have hc : ∀ x, (((List.replicate n 1 : List Nat).getD x 0 : Nat) : Int) = strong x ((List.range n).map Event.create ++ [.set o]) := by
    intro x
    rw [strong_snoc, strong_create]
    simp [weight]
  have hl : lastSet ((List.range n).map Event.create ++ [.set o]) = o := lastSet_snoc ..
  unfold new weakSet
  cases o with
  | none =>
    refine ⟨_, rfl, hc, rfl, by simp, fun _ => rfl, ?_, ?_⟩
    · intro _ x
      dsimp only
      rw [hl]
      simp
    · dsimp only
      rw [hl]
      intro _ e
      cases e
  | some y =>
    have hy := ho y rfl
    have e : (List.replicate n 1)[y]? = some 1 := by simp [hy]
    dsimp only
    rw [e]
    refine ⟨_, rfl, hc, rfl, by simp, by simp, ?_, ?_⟩
    · intro _ x
      dsimp only
      rw [hl]
      constructor
      · intro e; cases e; exact ⟨rfl, by simp [hy]⟩
      · exact fun e => e.1
    · dsimp only
      rw [hl]
      intro _ e
      cases e
      simpa using hy

theorem access_ok {s : State} (h : s.alive = true) : s.access = .ok () := by
  unfold State.access
  rw [if_pos h]

theorem inv_objRef {s : State} {x n : Nat} {e : Event} (h : Inv s) (hx : x < s.objs.length) (hn : s.objs.getD x 0 = n + 1)
    (he : e = .ref x ∨ e = .got (some x)) : Inv { s with objs := s.objs.set x (n + 2), log := s.log ++ [e] } := by
  have hl : lastSet (s.log ++ [e]) = lastSet s.log := by
    rw [lastSet_snoc]
    rcases he with rfl | rfl <;> rfl
  refine ⟨?_, h.refsEq, h.aliveIff, h.dead, ?_, ?_⟩
  · intro o
    dsimp only
    rw [getD_set hx, strong_snoc, ← h.count]
    rcases he with rfl | rfl
    all_goals
      simp only [weight, Option.some.injEq]
      by_cases ho : o = x
      · subst ho
        rw [if_pos rfl, if_pos rfl, hn]
        omega
      · rw [if_neg ho, if_neg (fun e => ho e.symm)]
        omega
  · intro ha o
    dsimp only
    rw [hl, getD_set hx, h.last ha]
    by_cases ho : o = x
    · subst ho
      rw [if_pos rfl, hn]
      simp
    · rw [if_neg ho]
  · intro o ho
    dsimp only at ho ⊢
    rw [hl] at ho
    rw [List.length_set]
    exact h.known o ho

/-- The value returned by the weak reference -/
theorem get_eq {s : State} (h : Inv s) (ho : 0 < s.owned) : ∃ s', get s = .ok (s', s.target) ∧ Inv s' ∧
    s'.log = s.log ++ [.got s.target] := by
  have ha := h.aliveIff.2 ho
  unfold get
  rw [access_ok ha, ok_bind]
  cases ht : s.target with
  | none =>
    refine ⟨{ s with log := s.log ++ [.got none] }, by dsimp only; rw [← ht], ?_, rfl⟩
    have hl : lastSet (s.log ++ [.got none]) = lastSet s.log := lastSet_snoc ..
    refine ⟨?_, h.refsEq, h.aliveIff, h.dead, ?_, ?_⟩
    · intro o
      dsimp only
      rw [strong_snoc, ← h.count]
      simp [weight]
    · intro ha o
      dsimp only
      rw [hl]
      exact h.last ha o
    · dsimp only
      rw [hl]
      exact h.known
  | some x =>
    have hx := ((h.last ha x).1 ht).2
    obtain ⟨n, hn, hx, hg⟩ := pos_getD hx
    dsimp only
    rw [hn]
    dsimp only
    refine ⟨_, rfl, ?_, rfl⟩
    have := inv_objRef h hx hg (.inr rfl)
    rw [ht] at this
    exact this

theorem inv_step {s : State} {a : Act} (h : Inv s) (ha : Allowed s a) : ∃ s', step s a = .ok s' ∧ Inv s' := by
  cases a with
  | objNew =>
    refine ⟨_, rfl, ?_⟩
    unfold objNew
    have hl : lastSet (s.log ++ [.create s.objs.length]) = lastSet s.log := lastSet_snoc ..
    refine ⟨?_, h.refsEq, h.aliveIff, h.dead, ?_, ?_⟩
    · intro o
      dsimp only
      rw [getD_concat, strong_snoc, ← h.count]
      simp only [weight]
      by_cases ho : o = s.objs.length
      · subst ho
        rw [if_pos rfl, if_pos rfl, List.getD_eq_getElem?_getD, List.getElem?_eq_none (by omega)]
        simp
      · rw [if_neg ho, if_neg (fun e => ho e.symm)]
        omega
    · intro ha o
      dsimp only
      rw [hl, getD_concat, h.last ha]
      by_cases ho : o = s.objs.length
      · subst ho
        rw [if_pos rfl]
        constructor
        · rintro ⟨h1, h2⟩
          exact ⟨h1, by omega⟩
        · rintro ⟨h1, _⟩
          have := h.known _ h1
          omega
      · rw [if_neg ho]
    · intro o ho
      dsimp only at ho ⊢
      rw [hl] at ho
      have := h.known o ho
      rw [List.length_append]
      simp
      omega
  | objRef x =>
    have ha : 0 < s.objs.getD x 0 := ha
    obtain ⟨n, hn, hx, hg⟩ := pos_getD ha
    refine ⟨{ s with objs := s.objs.set x (n + 2), log := s.log ++ [.ref x] }, ?_, inv_objRef h hx hg (.inl rfl)⟩
    unfold step objRef
    dsimp only
    rw [hn]
  | objUnref x =>
    have ha : 0 < s.objs.getD x 0 := ha
    obtain ⟨n, hn, hx, hg⟩ := pos_getD ha
    have hl : lastSet (s.log ++ [.unref x]) = lastSet s.log := lastSet_snoc ..
    have hk : ∀ o, lastSet (s.log ++ [.unref x]) = some o → o < (s.objs.set x n).length := by
      intro o ho
      rw [hl] at ho
      rw [List.length_set]
      exact h.known o ho
    have hcount : ∀ o, ((s.objs.set x n).getD o 0 : Int) = strong o (s.log ++ [.unref x]) := by
      intro o
      rw [getD_set hx, strong_snoc, ← h.count]
      simp only [weight]
      by_cases ho : o = x
      · subst ho
        rw [if_pos rfl, if_pos rfl, hg]
        omega
      · rw [if_neg ho, if_neg (fun e => ho e.symm)]
        omega
    have hother : ∀ o, o ≠ x → (s.objs.set x n).getD o 0 = s.objs.getD o 0 := by
      intro o ho
      rw [getD_set hx, if_neg ho]
    have hself : (s.objs.set x n).getD x 0 = n := by rw [getD_set hx, if_pos rfl]
    unfold step objUnref
    dsimp only
    rw [hn]
    cases n with
    | zero =>
      dsimp only
      by_cases ht : s.target = some x
      · have hal : s.alive = true := by
          cases hal : s.alive with
          | true => rfl
          | false => rw [h.dead hal] at ht; cases ht
        rw [if_pos ht, if_pos hal]
        refine ⟨_, rfl, hcount, h.refsEq, h.aliveIff, fun _ => rfl, ?_, hk⟩
        intro _ o
        dsimp only
        rw [hl]
        constructor
        · intro e; cases e
        · rintro ⟨h1, h2⟩
          have h3 := (h.last hal x).1 ht
          rw [h3.1] at h1
          cases h1
          rw [hself] at h2
          omega
      · rw [if_neg ht]
        refine ⟨_, rfl, hcount, h.refsEq, h.aliveIff, h.dead, ?_, hk⟩
        intro hal o
        dsimp only
        rw [hl]
        by_cases ho : o = x
        · subst ho
          rw [hself]
          constructor
          · intro e; exact absurd e ht
          · rintro ⟨_, h2⟩; omega
        · rw [hother o ho]
          exact h.last hal o
    | succ n =>
      dsimp only
      refine ⟨_, rfl, hcount, h.refsEq, h.aliveIff, h.dead, ?_, hk⟩
      intro hal o
      dsimp only
      rw [hl]
      by_cases ho : o = x
      · subst ho
        rw [hself, h.last hal, hg]
        simp
      · rw [hother o ho]
        exact h.last hal o
  | ref =>
    have ho : 0 < s.owned := ha
    refine ⟨{ s with refs := s.refs + 1, owned := s.owned + 1 }, ?_, h.count, ?_, ?_, h.dead, h.last, h.known⟩
    · unfold step ref
      dsimp only
      rw [access_ok (h.aliveIff.2 ho), ok_bind]
    · have := h.refsEq
      dsimp only
      omega
    · dsimp only
      rw [h.aliveIff]
      omega
  | unref =>
    have ho : 0 < s.owned := ha
    have hr := h.refsEq
    have hal := h.aliveIff.2 ho
    unfold step unref
    dsimp only
    rw [access_ok hal, ok_bind, if_neg (by omega)]
    split
    · refine ⟨_, rfl, h.count, ?_, ?_, fun _ => rfl, by simp, h.known⟩
      · dsimp only; omega
      · simp; omega
    · refine ⟨_, rfl, h.count, ?_, ?_, h.dead, h.last, h.known⟩
      · dsimp only; omega
      · dsimp only
        rw [h.aliveIff]
        omega
  | get =>
    have ho : 0 < s.owned := ha
    obtain ⟨s', e, h1, _⟩ := get_eq h ho
    refine ⟨s', ?_, h1⟩
    unfold step
    dsimp only
    rw [e, ok_bind]
  | set o =>
    have ho : 0 < s.owned := by
      cases o with
      | none => exact ha
      | some x => exact ha.1
    have hal := h.aliveIff.2 ho
    have hc : ∀ x, (s.objs.getD x 0 : Int) = strong x (s.log ++ [.set o]) := by
      intro x
      rw [strong_snoc, ← h.count]
      simp [weight]
    have hl : lastSet (s.log ++ [.set o]) = o := lastSet_snoc ..
    unfold step set
    dsimp only
    rw [access_ok hal, ok_bind]
    cases o with
    | none =>
      refine ⟨_, rfl, hc, h.refsEq, h.aliveIff, fun _ => rfl, ?_, ?_⟩
      · intro _ x
        dsimp only
        rw [hl]
        simp
      · dsimp only
        rw [hl]
        intro _ e
        cases e
    | some y =>
      have hy : 0 < s.objs.getD y 0 := ha.2
      obtain ⟨n, hn, hx, hg⟩ := pos_getD hy
      unfold weakSet
      dsimp only
      rw [hn]
      refine ⟨_, rfl, hc, h.refsEq, h.aliveIff, ?_, ?_, ?_⟩
      · intro e; dsimp only at e; rw [hal] at e; cases e
      · intro _ x
        dsimp only
        rw [hl]
        constructor
        · intro e; cases e; exact ⟨rfl, hy⟩
        · exact fun e => e.1
      · dsimp only
        rw [hl]
        intro _ e
        cases e
        exact hx

theorem reach_inv {s : State} (h : Reach s) : Inv s := by
  induction h with
  | new ho e =>
    obtain ⟨s', e', h1⟩ := inv_new ho
    rw [e] at e'
    cases e'
    exact h1
  | step _ ha e ih =>
    obtain ⟨s', e', h1⟩ := inv_step ih ha
    rw [e] at e'
    cases e'
    exact h1

end Verif.Weak
